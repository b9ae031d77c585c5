import Verif.Threads
import Verif.PropsErrors

/-!
# Properties C26, C27, C28, C33: worker threads and thread-local state
-/

namespace Afmt

/-! ### Specification -/

/-- What formatting a file on its own amounts to; `none`: the stack overflows. -/
def fileOutcome (wd : World) (cfg : Config) (read : Path → Option Str) (f : Path) : Option Res :=
  match read f with
  | none => some (.error "Thread panicked")
  | some s => match formatTree wd.checks wd.depth cfg (wd.parse s) with
    | .ok out => some (.ok out)
    | .error .stackOverflow => none
    | .error _ => some (.error "Thread panicked")

/-! ### Lemmas -/

theorem formatOne_fresh (wd : World) (cfg : Config) (s : Str) :
    (formatOne wd cfg s Tls.fresh).1 = formatTree wd.checks wd.depth cfg (wd.parse s) := by
  simp only [formatOne, formatTree]
  cases checkParsed (wd.parse s) with
  | error e => rfl
  | ok root =>
    simp only [Tls.setSource, Tls.fresh, Option.isSome_none, Bool.false_eq_true, if_false]
    cases hc : commentMap root with
    | error e => rfl
    | ok cm => simp [Tls.setCMap, Tls.getCMap]

/-- What a worker will send. -/
def WSt.owed (wd : World) (cfg : Config) (read : Path → Option Str) : WSt → List (Option Res)
  | .ready f => [fileOutcome wd cfg read f]
  | .loaded s => [match formatTree wd.checks wd.depth cfg (wd.parse s) with
    | .ok out => some (.ok out)
    | .error .stackOverflow => none
    | .error _ => some (.error "Thread panicked")]
  | .computed r => [some r]
  | .gone => []

/-- Everything delivered or owed. -/
def Sys.account (wd : World) (cfg : Config) (read : Path → Option Str) (s : Sys) : List (Option Res) :=
  s.got.map some ++ (s.chan.map some ++ ((s.workers.map (WSt.owed wd cfg read)).flatten ++
    s.pending.map (fileOutcome wd cfg read)))

theorem flatten_set {α β : Type} (f : α → List β) (l : List α) (i : Nat) (w w' : α) (h : l[i]? = some w) :
    ∃ a b, (l.map f).flatten = a ++ (f w ++ b) ∧ ((l.set i w').map f).flatten = a ++ (f w' ++ b) := by
  induction l generalizing i with
  | nil => simp at h
  | cons x l ih =>
    cases i with
    | zero =>
      simp only [List.getElem?_cons_zero, Option.some.injEq] at h
      subst h
      exact ⟨[], (l.map f).flatten, by simp, by simp⟩
    | succ i =>
      simp only [List.getElem?_cons_succ] at h
      obtain ⟨a, b, h1, h2⟩ := ih i h
      exact ⟨f x ++ a, b, by simp [h1], by simp only [List.set_cons_succ, List.map_cons, List.flatten_cons, h2, List.append_assoc]⟩

theorem worker_owed {wd : World} {cfg : Config} {read : Path → Option Str} {w : WSt} :
    (∀ w', workerStep wd cfg read w = .next w' → w'.owed wd cfg read = w.owed wd cfg read) ∧
    (∀ r, workerStep wd cfg read w = .send r → w.owed wd cfg read = [some r]) := by
  cases w with
  | ready f =>
    simp only [workerStep, WSt.owed, fileOutcome]
    cases hr : read f with
    | none => simp [panicked]
    | some s => simp
  | loaded s =>
    simp only [workerStep, formatOne_fresh, WSt.owed]
    cases hf : formatTree wd.checks wd.depth cfg (wd.parse s) with
    | ok out => simp
    | error e => cases e <;> simp [panicked]
  | computed r => simp [workerStep, WSt.owed]
  | gone => simp [workerStep]

theorem step_account {wd : World} {cfg : Config} {read : Path → Option Str} {s s' : Sys} {l : Label}
    (h : s.step wd cfg read l = some s') : (s'.account wd cfg read).Perm (s.account wd cfg read) := by
  unfold Sys.step at h
  split at h
  · cases h
  cases l with
  | spawn =>
    simp only at h
    split at h
    · rename_i f fs hp
      cases h
      simp only [Sys.account, hp, List.map_append, List.map_cons, List.map_nil, List.flatten_append, List.flatten_cons,
        List.flatten_nil, WSt.owed, List.append_nil, List.append_assoc, List.singleton_append]
      exact List.Perm.refl _
    · cases h
  | dropTx =>
    simp only at h
    split at h
    · cases h; exact List.Perm.refl _
    · cases h
  | work i =>
    simp only at h
    split at h
    · cases h
    · rename_i w hw
      split at h
      · rename_i w' hs
        cases h
        obtain ⟨a, b, e1, e2⟩ := flatten_set (WSt.owed wd cfg read) s.workers i w w' hw
        simp only [Sys.account, e1, e2, (worker_owed.1 w' hs)]
        exact List.Perm.refl _
      · rename_i r hs
        cases h
        obtain ⟨a, b, e1, e2⟩ := flatten_set (WSt.owed wd cfg read) s.workers i w .gone hw
        have e3 : WSt.owed wd cfg read .gone = [] := rfl
        simp only [Sys.account, e1, e2, (worker_owed.2 r hs), e3, List.nil_append, List.map_append, List.map_cons,
          List.map_nil, List.append_assoc]
        refine List.Perm.append_left _ (List.Perm.append_left _ ?_)
        simpa using (List.perm_middle (a := some r) (l₁ := a) (l₂ := b ++ s.pending.map (fileOutcome wd cfg read))).symm
      · cases h; exact List.Perm.refl _
      · cases h
  | recv =>
    simp only at h
    split at h
    · rename_i r rs hc
      split at h
      · cases h
        simp only [Sys.account, hc, List.map_append, List.map_cons, List.map_nil, List.append_assoc, List.cons_append,
          List.nil_append]
        exact List.Perm.refl _
      · cases h
    · cases h
  | finish =>
    simp only at h
    split at h
    · cases h; exact List.Perm.refl _
    · cases h

theorem run_account {wd : World} {cfg : Config} {read : Path → Option Str} {s s' : Sys} {ls : List Label}
    (h : s.run wd cfg read ls = some s') : (s'.account wd cfg read).Perm (s.account wd cfg read) := by
  induction ls generalizing s with
  | nil => cases h; exact List.Perm.refl _
  | cons l ls ih =>
    simp only [Sys.run] at h
    split at h
    · rename_i s1 h1; exact (ih h).trans (step_account h1)
    · cases h

/-- Once finished, nothing is owed any more. -/
def Sys.Settled (s : Sys) : Prop :=
  (s.dropped = true → s.pending = []) ∧
  (s.finished = true → s.chan = [] ∧ s.pending = [] ∧ s.workers.all WSt.isGone = true ∧ s.aborted = false)

theorem step_settled {wd : World} {cfg : Config} {read : Path → Option Str} {s s' : Sys} {l : Label}
    (h : s.step wd cfg read l = some s') (hs : s.Settled) : s'.Settled := by
  unfold Sys.step at h
  split at h
  · cases h
  rename_i hfa
  simp only [Bool.or_eq_true, not_or, Bool.not_eq_true] at hfa
  cases l with
  | spawn =>
    simp only at h
    split at h
    · rename_i f fs hp
      cases h
      refine ⟨fun hd => ?_, by simp [hfa.1]⟩
      have := hs.1 hd
      rw [hp] at this; cases this
    · cases h
  | dropTx =>
    simp only at h
    split at h
    · rename_i hc
      cases h
      exact ⟨fun _ => hc.1, by simp [hfa.1]⟩
    · cases h
  | work i =>
    simp only at h
    split at h
    · cases h
    · split at h
      · cases h; exact ⟨hs.1, by simp [hfa.1]⟩
      · cases h; exact ⟨hs.1, by simp [hfa.1]⟩
      · cases h; exact ⟨hs.1, by simp [hfa.1]⟩
      · cases h
  | recv =>
    simp only at h
    split at h
    · split at h
      · cases h; exact ⟨hs.1, by simp [hfa.1]⟩
      · cases h
    · cases h
  | finish =>
    simp only at h
    split at h
    · rename_i hc
      cases h
      exact ⟨hs.1, fun _ => ⟨hc.2.1, hs.1 hc.1, hc.2.2, hfa.2⟩⟩
    · cases h

theorem run_settled {wd : World} {cfg : Config} {read : Path → Option Str} {s s' : Sys} {ls : List Label}
    (h : s.run wd cfg read ls = some s') (hs : s.Settled) : s'.Settled := by
  induction ls generalizing s with
  | nil => cases h; exact hs
  | cons l ls ih =>
    simp only [Sys.run] at h
    split at h
    · rename_i s1 h1; exact ih h (step_settled h1 hs)
    · cases h

theorem init_settled (files : List Path) : (Sys.init files).Settled := by
  simp [Sys.Settled, Sys.init]

theorem finished_account {wd : World} {cfg : Config} {read : Path → Option Str} {files : List Path} {s : Sys}
    {ls : List Label} (h : (Sys.init files).run wd cfg read ls = some s) (hf : s.finished = true) :
    (s.got.map some).Perm (files.map (fileOutcome wd cfg read)) := by
  have h1 := run_account h
  obtain ⟨hc, hp, hw, _⟩ := (run_settled h (init_settled files)).2 hf
  have hw0 : (s.workers.map (WSt.owed wd cfg read)).flatten = [] := by
    rw [List.flatten_eq_nil_iff]
    intro l hl
    obtain ⟨w, hm, rfl⟩ := List.mem_map.1 hl
    have := List.all_eq_true.1 hw w hm
    cases w <;> first | rfl | simp [WSt.isGone] at this
  simpa [Sys.account, hc, hp, hw0, Sys.init] using h1

/-! ## C26 -/

/-- Work left: an upper bound on the number of steps. -/
def WSt.weight : WSt → Nat
  | .ready _ => 4
  | .loaded _ => 3
  | .computed _ => 2
  | .gone => 0

/-- Upper bound on the number of steps a process can still make. -/
def Sys.weight (s : Sys) : Nat :=
  if s.finished || s.aborted then 0
  else 1 + 5 * s.pending.length + (s.workers.map WSt.weight).sum + s.chan.length + (if s.dropped then 0 else 1)

theorem sum_set (l : List WSt) (i : Nat) (w w' : WSt) (h : l[i]? = some w) :
    ((l.set i w').map WSt.weight).sum + w.weight = (l.map WSt.weight).sum + w'.weight := by
  induction l generalizing i with
  | nil => simp at h
  | cons x l ih =>
    cases i with
    | zero =>
      simp only [List.getElem?_cons_zero, Option.some.injEq] at h
      subst h
      simp; omega
    | succ i =>
      simp only [List.getElem?_cons_succ] at h
      have := ih i h
      simp only [List.set_cons_succ, List.map_cons, List.sum_cons]; omega

theorem worker_weight {wd : World} {cfg : Config} {read : Path → Option Str} {w : WSt} :
    (∀ w', workerStep wd cfg read w = .next w' → w'.weight < w.weight) ∧
    (∀ r, workerStep wd cfg read w = .send r → w.weight = 2) ∧
    (w ≠ .gone → workerStep wd cfg read w ≠ .stuck) := by
  cases w with
  | ready f =>
    simp only [workerStep]
    cases hr : read f <;> simp [WSt.weight]
  | loaded s =>
    simp only [workerStep, formatOne_fresh]
    cases hf : formatTree wd.checks wd.depth cfg (wd.parse s) with
    | ok out => simp [WSt.weight]
    | error e => cases e <;> simp [WSt.weight]
  | computed r => simp [workerStep, WSt.weight]
  | gone => simp [workerStep]

theorem step_weight {wd : World} {cfg : Config} {read : Path → Option Str} {s s' : Sys} {l : Label}
    (h : s.step wd cfg read l = some s') : s'.weight < s.weight := by
  unfold Sys.step at h
  split at h
  · cases h
  rename_i hfa
  simp only [Bool.not_eq_true] at hfa
  have hw : s.weight = 1 + 5 * s.pending.length + (s.workers.map WSt.weight).sum + s.chan.length +
      (if s.dropped then 0 else 1) := by simp [Sys.weight, hfa]
  rw [hw]
  cases l with
  | spawn =>
    simp only at h
    split at h
    · rename_i f fs hp
      cases h
      simp only [Sys.weight, hfa, hp, List.length_cons, List.map_append, List.map_cons, List.map_nil, List.sum_append,
        List.sum_cons, List.sum_nil, WSt.weight, Bool.false_eq_true, if_false]
      omega
    · cases h
  | dropTx =>
    simp only at h
    split at h
    · rename_i hc
      cases h
      simp [Sys.weight, hfa, hc.2]
    · cases h
  | work i =>
    simp only at h
    split at h
    · cases h
    · rename_i w hg
      split at h
      · rename_i w' hs
        cases h
        have h1 := sum_set s.workers i w w' hg
        have h2 := worker_weight.1 w' hs
        simp only [Sys.weight, hfa, Bool.false_eq_true, if_false]
        omega
      · rename_i r hs
        cases h
        have h1 := sum_set s.workers i w .gone hg
        have h2 := worker_weight.2.1 r hs
        have h3 : WSt.gone.weight = 0 := rfl
        simp only [Sys.weight, hfa, Bool.false_eq_true, if_false, List.length_append, List.length_cons, List.length_nil]
        omega
      · cases h
        simp only [Sys.weight, Bool.or_true, if_true]
        omega
      · cases h
  | recv =>
    simp only at h
    split at h
    · rename_i r rs hc
      split at h
      · rename_i hd
        cases h
        simp only [Sys.weight, hfa, hc, Bool.false_eq_true, if_false, List.length_cons]
        omega
      · cases h
    · cases h
  | finish =>
    simp only at h
    split at h
    · cases h
      simp only [Sys.weight, Bool.true_or, if_true]
      omega
    · cases h

/-- **C26**: under every schedule, if `format` returns then its results are, up to order, the outcomes of the files
formatted one by one: exactly one per file, independent of the schedule. -/
theorem C26_one_result_per_file (wd : World) (cfg : Config) (read : Path → Option Str) (files : List Path)
    (sched : List Label) (s : Sys) (h : (Sys.init files).run wd cfg read sched = some s) (hf : s.finished = true) :
    s.got.length = files.length ∧ (s.got.map some).Perm (files.map (fileOutcome wd cfg read)) := by
  have := finished_account h hf
  exact ⟨by simpa using this.length_eq, this⟩

/-- **C26**: two schedules return the same results up to order. -/
theorem C26_schedule_independent (wd : World) (cfg : Config) (read : Path → Option Str) (files : List Path)
    (sched sched' : List Label) (s s' : Sys) (h : (Sys.init files).run wd cfg read sched = some s)
    (hf : s.finished = true) (h' : (Sys.init files).run wd cfg read sched' = some s') (hf' : s'.finished = true) :
    s.got.Perm s'.got := by
  have h1 := (finished_account h hf).trans (finished_account h' hf').symm
  have := h1.filterMap id
  simpa using this

/-- **C26**: no deadlock (as long as `format` has not returned and the process is alive some thread can move) and no
infinite run (a run has at most `5 n + 2` steps for `n` files). -/
theorem C26_terminates (wd : World) (cfg : Config) (read : Path → Option Str) (files : List Path)
    (sched : List Label) (s : Sys) (h : (Sys.init files).run wd cfg read sched = some s) :
    sched.length ≤ 5 * files.length + 2 ∧
    (s.finished = false → s.aborted = false → ∃ l s', s.step wd cfg read l = some s') := by
  constructor
  · have key : ∀ (ls : List Label) (s0 s1 : Sys), s0.run wd cfg read ls = some s1 → ls.length ≤ s0.weight := by
      intro ls
      induction ls with
      | nil => intro s0 s1 _; simp
      | cons l ls ih =>
        intro s0 s1 h
        simp only [Sys.run] at h
        split at h
        · rename_i s2 h2
          have := ih s2 s1 h
          have := step_weight h2
          simp only [List.length_cons]; omega
        · cases h
    have := key sched _ _ h
    simp [Sys.weight, Sys.init] at this
    omega
  · intro hf ha
    have hfa : (s.finished || s.aborted) = false := by simp [hf, ha]
    by_cases hp : s.pending = []
    · by_cases hd : s.dropped = true
      · by_cases hw : s.workers.all WSt.isGone = true
        · cases hc : s.chan with
          | nil => exact ⟨.finish, _, by simp only [Sys.step, hfa, hd, hc, hw]; rfl⟩
          | cons r rs => exact ⟨.recv, _, by simp only [Sys.step, hfa, hd, hc]; rfl⟩
        · simp only [List.all_eq_true, Classical.not_forall] at hw
          obtain ⟨w, hm, hne⟩ := hw
          replace hne : w ≠ .gone := fun e => hne (by rw [e]; rfl)
          obtain ⟨i, hi⟩ := List.getElem?_of_mem hm
          refine ⟨.work i, ?_⟩
          have := (worker_weight (wd := wd) (cfg := cfg) (read := read) (w := w)).2.2 hne
          simp only [Sys.step, hfa, Bool.false_eq_true, if_false, hi]
          cases hs : workerStep wd cfg read w with
          | stuck => exact absurd hs this
          | next w' => exact ⟨_, rfl⟩
          | send r => exact ⟨_, rfl⟩
          | abort => exact ⟨_, rfl⟩
      · exact ⟨.dropTx, _, by simp only [Sys.step, hfa, hp]; simp [hd]; rfl⟩
    · cases hq : s.pending with
      | nil => exact absurd hq hp
      | cons f fs => exact ⟨.spawn, _, by simp only [Sys.step, hfa, hq]; rfl⟩

/-! ## C27 -/

/-- Some schedule leads from `s` to `s'`. -/
def Reach (wd : World) (cfg : Config) (read : Path → Option Str) (s s' : Sys) : Prop :=
  ∃ ls, s.run wd cfg read ls = some s'

theorem Reach.refl {wd : World} {cfg : Config} {read : Path → Option Str} {s : Sys} : Reach wd cfg read s s := ⟨[], rfl⟩

theorem Reach.head {wd : World} {cfg : Config} {read : Path → Option Str} {s s' s'' : Sys} {l : Label}
    (h : s.step wd cfg read l = some s') (h' : Reach wd cfg read s' s'') : Reach wd cfg read s s'' := by
  obtain ⟨ls, h'⟩ := h'
  exact ⟨l :: ls, by simp [Sys.run, h, h']⟩

theorem reach_spawned {wd : World} {cfg : Config} {read : Path → Option Str} (files : List Path) : ∀ (s : Sys),
    s.pending = files → s.finished = false → s.aborted = false → s.dropped = false →
    Reach wd cfg read s
      { s with pending := [], workers := s.workers ++ files.map .ready, dropped := true } := by
  induction files with
  | nil =>
    intro s hp hf ha hd
    refine Reach.head (l := .dropTx) (s' := { s with dropped := true }) (by simp [Sys.step, hf, ha, hp, hd]) ?_
    have : ({ s with pending := [], workers := s.workers ++ [].map WSt.ready, dropped := true } : Sys) =
        { s with dropped := true } := by
      cases s; simp at hp ⊢; exact hp
    rw [this]
    exact Reach.refl
  | cons f fs ih =>
    intro s hp hf ha hd
    refine Reach.head (l := .spawn) (s' := { s with pending := fs, workers := s.workers ++ [.ready f] })
      (by simp [Sys.step, hf, ha, hp]) ?_
    have := ih { s with pending := fs, workers := s.workers ++ [.ready f] } rfl hf ha hd
    simpa using this

/-- The worker only has to send. -/
def WSt.atSend : WSt → Bool
  | .computed _ => true
  | .gone => true
  | _ => false

theorem reach_computed {wd : World} {cfg : Config} {read : Path → Option Str} : ∀ (n : Nat) (s : Sys),
    (s.workers.map WSt.weight).sum ≤ n → s.finished = false → s.aborted = false →
    none ∉ (s.workers.map (WSt.owed wd cfg read)).flatten →
    ∃ ws, Reach wd cfg read s { s with workers := ws } ∧ ws.all WSt.atSend = true ∧
      (ws.map (WSt.owed wd cfg read)).flatten = (s.workers.map (WSt.owed wd cfg read)).flatten := by
  intro n
  induction n with
  | zero =>
    intro s hn _ _ _
    refine ⟨s.workers, Reach.refl, ?_, rfl⟩
    rw [List.all_eq_true]
    intro w hw
    have : w.weight = 0 := by
      have hle : ∀ (l : List WSt), w ∈ l → w.weight ≤ (l.map WSt.weight).sum := by
        intro l
        induction l with
        | nil => intro h; cases h
        | cons x l ih =>
          intro h
          simp only [List.map_cons, List.sum_cons]
          rcases List.mem_cons.1 h with rfl | h
          · omega
          · have := ih h; omega
      have := hle _ hw
      omega
    cases w <;> simp [WSt.weight] at this <;> rfl
  | succ n ih =>
    intro s hn hf ha hno
    by_cases hall : s.workers.all WSt.atSend = true
    · exact ⟨s.workers, Reach.refl, hall, rfl⟩
    · simp only [List.all_eq_true, Classical.not_forall] at hall
      obtain ⟨w, hm, hne⟩ := hall
      obtain ⟨i, hi⟩ := List.getElem?_of_mem hm
      have hstep : ∃ w', workerStep wd cfg read w = .next w' := by
        have hno' : none ∉ w.owed wd cfg read := fun hc => hno (List.mem_flatten.2 ⟨_, List.mem_map.2 ⟨w, hm, rfl⟩, hc⟩)
        cases w with
        | ready f => cases hr : read f <;> simp [workerStep, hr]
        | loaded src =>
          simp only [workerStep, formatOne_fresh]
          simp only [WSt.owed] at hno'
          cases hft : formatTree wd.checks wd.depth cfg (wd.parse src) with
          | ok out => exact ⟨_, rfl⟩
          | error e => rw [hft] at hno'; cases e <;> first | exact ⟨_, rfl⟩ | simp at hno'
        | computed r => simp [WSt.atSend] at hne
        | gone => simp [WSt.atSend] at hne
      obtain ⟨w', hs⟩ := hstep
      obtain ⟨a, b, e1, e2⟩ := flatten_set (WSt.owed wd cfg read) s.workers i w w' hi
      have hsum := sum_set s.workers i w w' hi
      have hlt := worker_weight.1 w' hs
      have hfl : ((s.workers.set i w').map (WSt.owed wd cfg read)).flatten =
          (s.workers.map (WSt.owed wd cfg read)).flatten := by rw [e1, e2, worker_owed.1 w' hs]
      obtain ⟨ws, h1, h2, h3⟩ := ih { s with workers := s.workers.set i w' } (by simp only; omega) hf ha
        (by simp only [hfl]; exact hno)
      refine ⟨ws, Reach.head (l := .work i) (s' := { s with workers := s.workers.set i w' }) ?_ h1, h2, by rw [h3, hfl]⟩
      simp [Sys.step, hf, ha, hi, hs]

theorem reach_sent {wd : World} {cfg : Config} {read : Path → Option Str} (rs : List Res) : ∀ (s : Sys),
    s.finished = false → s.aborted = false → s.dropped = true → s.chan = [] → s.pending = [] →
    s.workers.all WSt.atSend = true → (rs.map some).Perm (s.workers.map (WSt.owed wd cfg read)).flatten →
    ∃ s', Reach wd cfg read s s' ∧ s'.finished = true ∧ s'.got = s.got ++ rs := by
  induction rs with
  | nil =>
    intro s hf ha hd hc hp hw hperm
    have hgone : s.workers.all WSt.isGone = true := by
      rw [List.all_eq_true] at hw ⊢
      intro w hm
      have h0 : (s.workers.map (WSt.owed wd cfg read)).flatten = [] := by simpa using hperm.symm.eq_nil
      have h1 := List.flatten_eq_nil_iff.1 h0 (w.owed wd cfg read) (List.mem_map.2 ⟨w, hm, rfl⟩)
      have h2 := hw w hm
      cases w <;> simp [WSt.owed, WSt.atSend] at h1 h2 <;> rfl
    exact ⟨{ s with finished := true }, Reach.head (l := .finish) (by simp [Sys.step, hf, ha, hd, hc, hgone]) Reach.refl,
      rfl, by simp⟩
  | cons r rs ih =>
    intro s hf ha hd hc hp hw hperm
    have hmem : some r ∈ (s.workers.map (WSt.owed wd cfg read)).flatten := hperm.mem_iff.1 (by simp)
    obtain ⟨l, hl, hr⟩ := List.mem_flatten.1 hmem
    obtain ⟨w, hm, rfl⟩ := List.mem_map.1 hl
    have hwr : w = .computed r := by
      have h2 := List.all_eq_true.1 hw w hm
      cases w with
      | computed r' => simp [WSt.owed] at hr; rw [hr]
      | _ => simp [WSt.owed, WSt.atSend] at hr h2
    subst hwr
    obtain ⟨i, hi⟩ := List.getElem?_of_mem hm
    obtain ⟨a, b, e1, e2⟩ := flatten_set (WSt.owed wd cfg read) s.workers i _ .gone hi
    let s1 : Sys := { s with workers := s.workers.set i .gone, chan := [r] }
    let s2 : Sys := { s with workers := s.workers.set i .gone, chan := [], got := s.got ++ [r] }
    have st1 : s.step wd cfg read (.work i) = some s1 := by simp [Sys.step, hf, ha, hi, workerStep, hc, s1]
    have st2 : s1.step wd cfg read .recv = some s2 := by simp [Sys.step, hf, ha, hd, s1, s2]
    obtain ⟨s', h1, h2, h3⟩ := ih s2 hf ha hd rfl hp (by
      rw [List.all_eq_true] at hw ⊢
      intro x hx
      rcases List.mem_or_eq_of_mem_set hx with h | rfl
      · exact hw x h
      · rfl) (by
      simp only [s2, e2]
      rw [e1] at hperm
      have h4 : (some r :: rs.map some).Perm (some r :: (a ++ b)) := by
        have h5 : (some r :: rs.map some).Perm (a ++ some r :: b) := by simpa [WSt.owed] using hperm
        exact h5.trans List.perm_middle
      simpa [WSt.owed] using h4.cons_inv)
    exact ⟨s', .head st1 (.head st2 h1), h2, by rw [h3]; simp [s2]⟩

/-- **C27 is false**: *every* ordering of the results can be returned, depending only on the schedule. -/
theorem C27_any_order_possible (wd : World) (cfg : Config) (read : Path → Option Str) (files : List Path)
    (rs : List Res) (h : (rs.map some).Perm (files.map (fileOutcome wd cfg read))) :
    ∃ sched s, (Sys.init files).run wd cfg read sched = some s ∧ s.finished = true ∧ s.got = rs := by
  have hno : none ∉ files.map (fileOutcome wd cfg read) := by
    rw [← h.mem_iff]; simp
  have hfl : ∀ fs : List Path, ((fs.map WSt.ready).map (WSt.owed wd cfg read)).flatten =
      fs.map (fileOutcome wd cfg read) := by
    intro fs
    induction fs with
    | nil => rfl
    | cons f fs ih => simp only [List.map_cons, List.flatten_cons, ih]; rfl
  obtain ⟨l1, h1⟩ := reach_spawned (wd := wd) (cfg := cfg) (read := read) files (Sys.init files) rfl rfl rfl rfl
  simp only [Sys.init, List.nil_append] at h1
  obtain ⟨ws, ⟨l2, h2⟩, h3, h4⟩ := reach_computed (wd := wd) (cfg := cfg) (read := read) _
    (⟨[], files.map .ready, [], true, [], false, false⟩ : Sys) (Nat.le_refl _) rfl rfl (by rw [hfl]; exact hno)
  rw [hfl] at h4
  obtain ⟨s', ⟨l3, h5⟩, h6, h7⟩ := reach_sent (wd := wd) (cfg := cfg) (read := read) rs
    (⟨[], ws, [], true, [], false, false⟩ : Sys) rfl rfl rfl rfl rfl h3 (by rw [h4]; exact h)
  have hrun : ∀ (a b : List Label) (x y : Sys), x.run wd cfg read a = some y →
      x.run wd cfg read (a ++ b) = y.run wd cfg read b := by
    intro a b
    induction a with
    | nil => intro x y h; cases h; rfl
    | cons l a ih =>
      intro x y h
      simp only [Sys.run] at h
      simp only [List.cons_append, Sys.run]
      split at h
      · rename_i z hz; exact ih _ _ h
      · cases h
  refine ⟨l1 ++ (l2 ++ l3), s', ?_, h6, by simpa using h7⟩
  rw [Sys.init, hrun _ _ _ _ h1, hrun _ _ _ _ h2, h5]

/-- **C27** for one file, the only way the command line program calls `format`: the result is that file's. -/
theorem C27_single_file_partial (wd : World) (cfg : Config) (read : Path → Option Str) (file : Path)
    (sched : List Label) (s : Sys) (h : (Sys.init [file]).run wd cfg read sched = some s) (hf : s.finished = true) :
    ∃ r, s.got = [r] ∧ fileOutcome wd cfg read file = some r := by
  have := finished_account h hf
  simp only [List.map_cons, List.map_nil, List.perm_singleton, List.map_eq_cons_iff, List.map_eq_nil_iff] at this
  obtain ⟨r, l, h1, h2, h3⟩ := this
  exact ⟨r, by rw [h1, h3], h2.symm⟩

/-! ## C28 -/

theorem mem_step_results {wd : World} {cfg : Config} {read : Path → Option Str} {files : List Path} {s : Sys}
    {ls : List Label} (h : (Sys.init files).run wd cfg read ls = some s) (r : Res) (hr : r ∈ s.got) :
    ∃ f ∈ files, fileOutcome wd cfg read f = some r := by
  have h1 := run_account h
  have : some r ∈ (Sys.init files).account wd cfg read :=
    h1.mem_iff.1 (by simp only [Sys.account, List.mem_append, List.mem_map]; exact .inl ⟨r, hr, rfl⟩)
  simpa [Sys.account, Sys.init] using this

/-- **C28**: if `format` returns, then the batch contains for every file exactly the outcome this file has in a batch of
its own (whatever the other files are, including files that fail); a file that cannot be read or whose formatting panics
contributes one `Err`. -/
theorem C28_isolation_partial (wd : World) (cfg : Config) (read : Path → Option Str) (before after : List Path)
    (file : Path) (sched sched1 : List Label) (s s1 : Sys)
    (h : (Sys.init (before ++ file :: after)).run wd cfg read sched = some s) (hf : s.finished = true)
    (h1 : (Sys.init [file]).run wd cfg read sched1 = some s1) (hf1 : s1.finished = true) :
    ∃ r rest, s1.got = [r] ∧ s.got.Perm (r :: rest) ∧ (rest.map some).Perm ((before ++ after).map (fileOutcome wd cfg read)) ∧
      ((read file = none ∨ ∃ src e, read file = some src ∧
        formatTree wd.checks wd.depth cfg (wd.parse src) = .error e) → r = panicked) := by
  obtain ⟨r, hr, ho⟩ := C27_single_file_partial wd cfg read file sched1 s1 h1 hf1
  have hp := finished_account h hf
  have hp' : (s.got.map some).Perm (some r :: (before ++ after).map (fileOutcome wd cfg read)) := by
    refine hp.trans ?_
    simp only [List.map_append, List.map_cons, ho]
    exact List.perm_middle
  have hm : r ∈ s.got := by
    have : some r ∈ s.got.map some := hp'.mem_iff.2 (by simp)
    simpa using this
  obtain ⟨a, b, hab⟩ := List.append_of_mem hm
  have hpm : s.got.Perm (r :: (a ++ b)) := by rw [hab]; exact List.perm_middle
  refine ⟨r, a ++ b, hr, hpm, ?_, ?_⟩
  · have := (hpm.map some).symm.trans hp'
    simpa using this.cons_inv
  · intro hbad
    unfold fileOutcome at ho
    rcases hbad with hn | ⟨src, e, hs, he⟩
    · rw [hn] at ho; simpa [panicked] using ho.symm
    · rw [hs] at ho
      simp only [he] at ho
      cases e <;> simp at ho <;> exact ho.symm

/-- **C28 is false for stack overflows**: if the formatting of one file overflows the stack, `format` returns for no
schedule, so no file of the batch gets a result. -/
theorem C28_stack_overflow_kills_batch (wd : World) (cfg : Config) (read : Path → Option Str) (files : List Path)
    (bad : Path) (src : Str) (hb : bad ∈ files) (hr : read bad = some src)
    (ho : formatTree wd.checks wd.depth cfg (wd.parse src) = .error .stackOverflow)
    (sched : List Label) (s : Sys) (h : (Sys.init files).run wd cfg read sched = some s) : s.finished = false := by
  cases hf : s.finished with
  | false => rfl
  | true =>
    have hp := finished_account h hf
    have : (none : Option Res) ∈ s.got.map some := hp.mem_iff.2 (List.mem_map.2 ⟨bad, hb, by simp [fileOutcome, hr, ho]⟩)
    simp at this

/-- **C29** on the level of `format`: a file whose tree contains an error node gets `Err`, under every schedule. -/
theorem C29_format_yields_err (wd : World) (cfg : Config) (read : Path → Option Str) (file : Path) (src : Str)
    (hr : read file = some src) (m : Node) (hm : m ∈ (wd.parse src).subtree) (he : m.err = true)
    (sched : List Label) (s : Sys) (h : (Sys.init [file]).run wd cfg read sched = some s) (hf : s.finished = true) :
    s.got = [.error "Thread panicked"] := by
  obtain ⟨r, hg, ho⟩ := C27_single_file_partial wd cfg read file sched s h hf
  have hno := C29_syntax_error_never_formatted wd.checks wd.depth cfg (wd.parse src) m hm he
  rw [hg]
  simp only [fileOutcome, hr] at ho
  cases hft : formatTree wd.checks wd.depth cfg (wd.parse src) with
  | ok out => exact absurd hft (hno out)
  | error e => rw [hft] at ho; cases e <;> simp at ho <;> rw [ho]

/-- Example world: every source is one of two trees. -/
def exWorld : World := ⟨fun s => if s = ['b'] then exNode 1 "bad" 0 0 "" [] else exClass, true, 9⟩
/-- Example files. -/
def exRead (p : Path) : Option Str := if p = "A.cls" then some ['a'] else if p = "B.cls" then some ['b'] else none

example : fileOutcome exWorld ⟨80, 2⟩ exRead "A.cls" = some (.ok "// y\nclass A {\n  /* x */\n}\n".toList) := by
  have : formatTree true 9 ⟨80, 2⟩ exClass = .ok "// y\nclass A {\n  /* x */\n}\n".toList := by decide
  have e : exRead "A.cls" = some ['a'] := by decide
  have e1 : exWorld.parse ['a'] = exClass := rfl
  simp only [fileOutcome, e, e1]
  simp only [exWorld, this]
example : fileOutcome exWorld ⟨80, 2⟩ exRead "B.cls" = some panicked := by
  have : formatTree true 9 ⟨80, 2⟩ (exNode 1 "bad" 0 0 "" []) = .error .assertCheck := by decide
  have e : exRead "B.cls" = some ['b'] := by decide
  have e1 : exWorld.parse ['b'] = exNode 1 "bad" 0 0 "" [] := rfl
  simp only [fileOutcome, e, e1, panicked]
  simp only [exWorld, this]
example : fileOutcome exWorld ⟨80, 2⟩ exRead "C.cls" = some panicked := by
  have e : exRead "C.cls" = none := by decide
  simp only [fileOutcome, e, panicked]
/-- Both orders are possible for a good and a bad file. -/
example (rs : List Res) (h : (rs.map some).Perm (["A.cls", "B.cls"].map (fileOutcome exWorld ⟨80, 2⟩ exRead))) :
    ∃ sched s, (Sys.init ["A.cls", "B.cls"]).run exWorld ⟨80, 2⟩ exRead sched = some s ∧ s.finished = true ∧ s.got = rs :=
  C27_any_order_possible _ _ _ _ _ h
/-- With too small a stack the class overflows it. -/
example : formatTree true 2 ⟨80, 2⟩ exClass = .error .stackOverflow := by decide

/-! ## C33 -/

/-- **C33**: on a fresh thread the result is that of the tree (`formatTree`); afterwards, unless the source had a syntax
error, the thread is used up: formatting any source fails. -/
theorem C33_once_per_thread (wd : World) (cfg cfg' : Config) (s s' : Str) :
    (formatOne wd cfg s Tls.fresh).1 = formatTree wd.checks wd.depth cfg (wd.parse s) ∧
    ((∀ m ∈ (wd.parse s).subtree, m.err = false) →
      ∃ e, (formatOne wd cfg' s' (formatOne wd cfg s Tls.fresh).2).1 = .error e) := by
  refine ⟨formatOne_fresh wd cfg s, fun h => ?_⟩
  have h0 : (wd.parse s).hasError = false := by
    cases hb : (wd.parse s).hasError with
    | false => rfl
    | true => obtain ⟨m, hm, e⟩ := (hasError_iff _).1 hb; simp [h m hm] at e
  have hsrc : ∃ x, (formatOne wd cfg s Tls.fresh).2.source = some x := by
    simp only [formatOne, checkParsed, h0, Bool.false_eq_true, if_false, Tls.setSource, Tls.fresh, Option.isSome_none]
    cases hc : commentMap (wd.parse s) with
    | error e => exact ⟨s, rfl⟩
    | ok cm => simp [Tls.setCMap, Tls.getCMap]
  obtain ⟨x, hx⟩ := hsrc
  generalize (formatOne wd cfg s Tls.fresh).2 = t at hx
  simp only [formatOne]
  cases checkParsed (wd.parse s') with
  | error e => exact ⟨e, rfl⟩
  | ok root => exact ⟨.alreadySet, by simp [Tls.setSource, hx]⟩

/-- Operations on the thread locals of one thread. -/
inductive TlsOp where
  | setSource (s : Str)
  | setCMap (m : CMap)

/-- Run an operation; a panic leaves the thread locals as they are. -/
def TlsOp.run (t : Tls) : TlsOp → Tls × Bool
  | .setSource s => match t.setSource s with
    | .ok t' => (t', true)
    | .error _ => (t, false)
  | .setCMap m => match t.setCMap m with
    | .ok t' => (t', true)
    | .error _ => (t, false)

/-- Run a sequence of operations. -/
def Tls.runs (t : Tls) : List TlsOp → Tls
  | [] => t
  | o :: os => (o.run t).1.runs os

/-- **C33**: over every sequence of operations on a fresh thread, reading the source (or the comment map) gives what the
first operation that set it stored, and fails if there was none: two sources are never mixed. -/
theorem C33_first_write_wins (ops : List TlsOp) :
    (Tls.fresh.runs ops).getSource = (match (ops.filterMap (fun | .setSource s => some s | _ => none)).head? with
      | some s => .ok s
      | none => .error .notSet) ∧
    (Tls.fresh.runs ops).getCMap = (match (ops.filterMap (fun | .setCMap s => some s | _ => none)).head? with
      | some s => .ok s
      | none => .error .notSet) := by
  have key : ∀ (ops : List TlsOp) (t : Tls),
      (t.runs ops).source = (match t.source with
        | some s => some s
        | none => (ops.filterMap (fun | .setSource s => some s | _ => none)).head?) ∧
      (t.runs ops).cmap = (match t.cmap with
        | some s => some s
        | none => (ops.filterMap (fun | .setCMap s => some s | _ => none)).head?) := by
    intro ops
    induction ops with
    | nil => intro t; cases t with | mk a b => cases a <;> cases b <;> simp [Tls.runs]
    | cons o ops ih =>
      intro t
      simp only [Tls.runs]
      rw [(ih _).1, (ih _).2]
      cases t with
      | mk a b => cases o <;> cases a <;> cases b <;> simp [TlsOp.run, Tls.setSource, Tls.setCMap]
  have := key ops Tls.fresh
  constructor
  · rw [Tls.getSource, this.1]
    simp only [Tls.fresh]
    cases (ops.filterMap (fun | TlsOp.setSource s => some s | _ => none)).head? <;> rfl
  · rw [Tls.getCMap, this.2]
    simp only [Tls.fresh]
    cases (ops.filterMap (fun | TlsOp.setCMap s => some s | _ => none)).head? <;> rfl

example : (Tls.fresh.runs [.setCMap [], .setSource ['a'], .setSource ['b']]).getSource = .ok ['a'] := by
  rw [(C33_first_write_wins _).1]; rfl
example : ∀ m ∈ (exWorld.parse ['a']).subtree, m.err = false := by
  simp [exWorld, exClass, exNode, exTok, exComment, exField, Node.subtree, forest]

end Afmt
