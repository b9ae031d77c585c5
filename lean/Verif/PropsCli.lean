import Verif.Cli
import Verif.PropsThreads

/-!
# Properties C34 - C40: the command line program
-/

namespace Afmt

/-! ### Specification -/

/-- The configuration in force: the default one, or the one in the file. -/
def Env.config (env : Env) (fs : Fs) : Option Path → Option Config
  | none => some ⟨80, 2⟩
  | some p => configFromFile env fs p

/-- The formatted text of a file, if it can be read and formatted. -/
def Env.formatted (env : Env) (cfg : Config) (fs : Fs) (p : Path) : Option Str :=
  match readText fs p with
  | none => none
  | some src => match formatTree env.wd.checks env.wd.depth cfg (env.wd.parse src) with
    | .ok out => some out
    | .error _ => none

/-- The formatter overflows the stack on this file. -/
def Env.Overflows (env : Env) (cfg : Config) (fs : Fs) (p : Path) : Prop :=
  ∃ src, readText fs p = some src ∧
    formatTree env.wd.checks env.wd.depth cfg (env.wd.parse src) = .error .stackOverflow

/-- At no point of the run is any file changed. -/
def NeverWrites (tr : List Io) : Prop := ∀ pre, pre <+: tr → ∀ fs : Fs, applyAll fs pre = fs

/-- The run ends with this exit code. -/
def Exits (tr : List Io) (code : Nat) : Prop := tr.getLast? = some (.exit code)

/-- The run is ended by a signal. -/
def Killed (tr : List Io) : Prop := tr.getLast? = some .abort

/-- The operating system writes what it is asked to write: all of it in case of success, else an initial part. -/
def Env.WritesSane (env : Env) : Prop := ∀ p data,
  match env.write p data with
  | .openFails => True
  | .fails pieces => pieces.flatten <+: data
  | .succeeds pieces => pieces.flatten = data

/-! ### UTF-8 -/

theorem encode_eq (s : Str) : (encode s).toByteArray = s.utf8Encode := rfl

theorem toByteArray_inj {a b : Bytes} (h : a.toByteArray = b.toByteArray) : a = b := by
  have h1 : a.toByteArray.data = b.toByteArray.data := by rw [h]
  simpa using h1

theorem decode_encode (s : Str) : decode (encode s) = some s := by
  simp [decode, encode_eq]

theorem encode_decode {b : Bytes} {s : Str} (h : decode b = some s) : encode s = b := by
  unfold decode at h
  cases hd : b.toByteArray.utf8Decode? with
  | none => rw [hd] at h; cases h
  | some a =>
    rw [hd] at h
    simp only [Option.map_some, Option.some.injEq] at h
    subst h
    apply toByteArray_inj
    rw [encode_eq]
    have : b.toByteArray.utf8Decode?.isSome := by rw [hd]; rfl
    have := ByteArray.utf8Encode_get_utf8Decode? (b := b.toByteArray) (h := this)
    simpa [hd] using this

theorem encode_inj {s t : Str} (h : encode s = encode t) : s = t := by
  have := decode_encode s
  rw [h, decode_encode] at this
  cases this; rfl

/-! ### Shape of runs -/

theorem config_eq (env : Env) (fs : Fs) (c : Option Path) :
    createFromConfig env fs c = ((match c with | some p => [.read p] | none => []), env.config fs c) := by
  cases c <;> rfl

/-- The files read for the configuration. -/
def configIo : Option Path → List Io
  | some p => [.read p]
  | none => []

theorem exec_cases {env : Env} {a : Args} {fs fs2 : Fs} {tr : List Io} (h : Exec env a fs fs2 tr)
    (hv : (a.check && a.write) = false) :
    (env.config fs a.config = none ∧ tr = configIo a.config ++ finishMain env a .err) ∨
    ∃ cfg, env.config fs a.config = some cfg ∧
      ((env.Overflows cfg fs a.path ∧ env.formatted cfg fs a.path = none ∧
          tr = configIo a.config ++ [.read a.path, .abort]) ∨
       (¬ env.Overflows cfg fs a.path ∧ ∃ r, (r = panicked ∧ env.formatted cfg fs a.path = none ∨
          ∃ out, r = .ok out ∧ env.formatted cfg fs a.path = some out) ∧
          tr = configIo a.config ++ .read a.path ::
            ((runLoop env a fs2 [r]).1 ++ finishMain env a (runLoop env a fs2 [r]).2))) := by
  unfold Exec at h
  simp only [getArgs, hv, Bool.false_eq_true, if_false, config_eq] at h
  have e : (match a.config with | some p => [Io.read p] | none => []) = configIo a.config := by
    cases a.config <;> rfl
  rw [e] at h
  cases hc : env.config fs a.config with
  | none => rw [hc] at h; exact .inl ⟨rfl, h⟩
  | some cfg =>
    rw [hc] at h
    refine .inr ⟨cfg, rfl, ?_⟩
    obtain ⟨sched, s, hr, h⟩ := h
    rcases h with ⟨ha, rfl⟩ | ⟨hf, rfl⟩
    · left
      -- an abort needs an overflow
      have key : ∀ (ls : List Label) (s0 s1 : Sys), s0.run env.wd cfg (readText fs) ls = some s1 → s0.aborted = false →
          s1.aborted = true → none ∈ s0.account env.wd cfg (readText fs) := by
        intro ls
        induction ls with
        | nil => intro s0 s1 h h1 h2; cases h; rw [h1] at h2; cases h2
        | cons l ls ih =>
          intro s0 s1 h h1 h2
          simp only [Sys.run] at h
          split at h
          · rename_i s2 hs2
            cases hab : s2.aborted with
            | false => exact (step_account hs2).mem_iff.1 (ih s2 s1 h hab h2)
            | true =>
              unfold Sys.step at hs2
              split at hs2
              · cases hs2
              cases l with
              | work i =>
                simp only at hs2
                split at hs2
                · cases hs2
                · rename_i w hw
                  split at hs2
                  · cases hs2; rw [h1] at hab; cases hab
                  · cases hs2; rw [h1] at hab; cases hab
                  · rename_i hst
                    have hno : none ∈ w.owed env.wd cfg (readText fs) := by
                      cases w with
                      | ready f => cases hr : readText fs f <;> simp [workerStep, hr] at hst
                      | loaded src =>
                        simp only [workerStep, formatOne_fresh] at hst
                        simp only [WSt.owed]
                        cases hft : formatTree env.wd.checks env.wd.depth cfg (env.wd.parse src) with
                        | ok out => rw [hft] at hst; cases hst
                        | error e => rw [hft] at hst; cases e <;> simp at hst ⊢
                      | computed r => simp [workerStep] at hst
                      | gone => simp [workerStep] at hst
                    simp only [Sys.account, List.mem_append]
                    exact .inr (.inr (.inl (List.mem_flatten.2 ⟨_, List.mem_map.2 ⟨w, List.mem_of_getElem? hw, rfl⟩, hno⟩)))
                  · cases hs2
              | spawn => simp only at hs2; split at hs2 <;> cases hs2; rw [h1] at hab; cases hab
              | dropTx => simp only at hs2; split at hs2 <;> cases hs2; rw [h1] at hab; cases hab
              | recv =>
                simp only at hs2
                split at hs2
                · split at hs2 <;> cases hs2; rw [h1] at hab; cases hab
                · cases hs2
              | finish => simp only at hs2; split at hs2 <;> cases hs2; rw [h1] at hab; cases hab
          · cases h
      have := key sched _ s hr rfl ha
      simp only [Sys.account, Sys.init, List.map_nil, List.flatten_nil, List.nil_append, List.map_cons,
        List.mem_singleton] at this
      unfold fileOutcome at this
      cases hrd : readText fs a.path with
      | none => rw [hrd] at this; cases this
      | some src =>
        rw [hrd] at this
        simp only at this
        cases hft : formatTree env.wd.checks env.wd.depth cfg (env.wd.parse src) with
        | ok out => rw [hft] at this; cases this
        | error e =>
          cases e <;> simp [hft] at this
          exact ⟨⟨src, hrd, hft⟩, by simp [Env.formatted, hrd, hft], rfl⟩
    · right
      obtain ⟨r, hg, ho⟩ := C27_single_file_partial env.wd cfg (readText fs) a.path sched s hr hf
      rw [hg]
      unfold fileOutcome at ho
      cases hrd : readText fs a.path with
      | none =>
        rw [hrd] at ho
        refine ⟨fun ⟨src, h1, _⟩ => (by rw [hrd] at h1; cases h1), r, ?_, rfl⟩
        left
        simp only [Option.some.injEq] at ho
        exact ⟨ho.symm, by simp [Env.formatted, hrd]⟩
      | some src =>
        rw [hrd] at ho
        simp only at ho
        cases hft : formatTree env.wd.checks env.wd.depth cfg (env.wd.parse src) with
        | ok out =>
          rw [hft] at ho
          simp only [Option.some.injEq] at ho
          refine ⟨fun ⟨src', h1, h2⟩ => (by rw [hrd] at h1; cases h1; rw [hft] at h2; cases h2), r, ?_, rfl⟩
          exact .inr ⟨out, ho.symm, by simp [Env.formatted, hrd, hft]⟩
        | error e =>
          refine ⟨fun ⟨src', h1, h2⟩ => ?_, r, .inl ⟨?_, by simp [Env.formatted, hrd, hft]⟩, rfl⟩
          · rw [hrd] at h1; cases h1; rw [hft] at h2; cases h2; simp [hft] at ho
          · cases e <;> simp [hft] at ho <;> exact ho.symm

/-- Operations that do not touch files. -/
def Io.quiet : Io → Bool
  | .truncate _ => false
  | .append _ _ => false
  | _ => true

theorem neverWrites_of_quiet {tr : List Io} (h : tr.all Io.quiet = true) : NeverWrites tr := by
  intro pre hp
  obtain ⟨r, rfl⟩ := hp
  simp only [List.all_append, Bool.and_eq_true] at h
  replace h := h.1
  induction pre with
  | nil => intro fs; rfl
  | cons x pre ih =>
    intro fs
    simp only [List.all_cons, Bool.and_eq_true] at h
    have := ih h.2
    simp only [applyAll, List.foldl_cons] at this ⊢
    have hx : Io.apply fs x = fs := by cases x <;> simp [Io.quiet] at h <;> rfl
    rw [hx]; exact this fs

theorem quiet_configIo (c : Option Path) : (configIo c).all Io.quiet = true := by cases c <;> rfl

theorem quiet_finish (env : Env) (a : Args) (r : RunEnd) : (finishMain env a r).all Io.quiet = true := by
  cases r
  · simp only [finishMain, say]
    split
    · cases env.stdoutOk <;> rfl
    · rfl
  · rfl
  · rfl

/-- Exit code for the end of `run`. -/
def endCode (env : Env) (a : Args) : RunEnd → Nat
  | .ok => if a.time && !env.stdoutOk then 101 else 0
  | .err => 1
  | .panic => 101

theorem exits_finish (env : Env) (a : Args) (r : RunEnd) (tr : List Io) (c : Nat) :
    Exits (tr ++ finishMain env a r) c ↔ c = endCode env a r := by
  unfold Exits
  have : ∀ (x : List Io) (y : Io), (x ++ [y]).getLast? = some y := by simp
  have h : ∃ x, finishMain env a r = x ++ [.exit (endCode env a r)] := by
    cases r
    · simp only [finishMain, say, endCode]
      cases a.time <;> cases env.stdoutOk <;> simp
      · exact ⟨[_], rfl⟩
    · exact ⟨[_], rfl⟩
    · exact ⟨[], rfl⟩
  obtain ⟨x, hx⟩ := h
  rw [hx, ← List.append_assoc, this]
  simp only [Option.some.injEq, Io.exit.injEq]
  exact eq_comm

theorem killed_finish (env : Env) (a : Args) (r : RunEnd) (tr : List Io) : ¬ Killed (tr ++ finishMain env a r) := by
  intro h
  have := (exits_finish env a r tr _).2 rfl
  unfold Exits at this
  unfold Killed at h
  rw [h] at this
  cases this

theorem exits_abort (tr : List Io) (p : Path) (c : Nat) : ¬ Exits (tr ++ [.read p, .abort]) c := by
  simp [Exits]

theorem killed_abort (tr : List Io) (p : Path) : Killed (tr ++ [.read p, .abort]) := by
  simp [Killed]

/-! ## C34 -/

/-- **C34**: `--check` never changes a file, whatever happens, and (if stdout can be written) the exit code is 0 exactly if
the configuration is fine, formatting succeeds and the file, when it is read again, has the formatted text; otherwise the
exit code is 1, except that a stack overflow kills the process. -/
theorem C34_check (env : Env) (a : Args) (fs fs2 : Fs) (tr : List Io) (hc : a.check = true) (hw : a.write = false)
    (h : Exec env a fs fs2 tr) :
    NeverWrites tr ∧
    (env.stdoutOk = true →
      (Exits tr 0 ↔ ∃ cfg out, env.config fs a.config = some cfg ∧ env.formatted cfg fs a.path = some out ∧
        readText fs2 a.path = some out) ∧
      (Exits tr 0 ∨ Exits tr 1 ∨
        (Killed tr ∧ ∃ cfg, env.config fs a.config = some cfg ∧ env.Overflows cfg fs a.path))) := by
  have hv : (a.check && a.write) = false := by simp [hw]
  rcases exec_cases h hv with ⟨h1, rfl⟩ | ⟨cfg, h1, h2⟩
  · refine ⟨neverWrites_of_quiet (by simp [quiet_configIo, quiet_finish]), fun _ => ⟨?_, ?_⟩⟩
    · rw [exits_finish, h1]; simp [endCode]
    · rw [exits_finish, exits_finish]; exact .inr (.inl rfl)
  · rcases h2 with ⟨h2, h3, rfl⟩ | ⟨h2, r, h3, rfl⟩
    · refine ⟨neverWrites_of_quiet (by simp [quiet_configIo, Io.quiet]), fun _ => ⟨?_, ?_⟩⟩
      · rw [h1]
        constructor
        · exact fun he => absurd he (exits_abort _ _ _)
        · rintro ⟨cfg', out, e, e2, _⟩; cases e; rw [h3] at e2; cases e2
      · exact .inr (.inr ⟨killed_abort _ _, cfg, h1, h2⟩)
    · have hre : configIo a.config ++ .read a.path ::
          ((runLoop env a fs2 [r]).1 ++ finishMain env a (runLoop env a fs2 [r]).2) =
          (configIo a.config ++ .read a.path :: (runLoop env a fs2 [r]).1) ++
            finishMain env a (runLoop env a fs2 [r]).2 := by simp
      rw [hre]
      have hq : (runLoop env a fs2 [r]).1.all Io.quiet = true := by
        cases r with
        | error e => rfl
        | ok v =>
          simp only [runLoop, hc, if_true, say]
          split
          · rfl
          · split
            · cases env.stdoutOk <;> rfl
            · rfl
      refine ⟨neverWrites_of_quiet (by simp [quiet_configIo, quiet_finish, Io.quiet, hq]), fun hso => ?_⟩
      rw [exits_finish, exits_finish]
      rcases h3 with ⟨rfl, h3⟩ | ⟨out, rfl, h3⟩
      · have : (runLoop env a fs2 [panicked]).2 = .err := rfl
        simp only [this]
        refine ⟨⟨fun he => by simp [endCode] at he, ?_⟩, .inr (.inl rfl)⟩
        rintro ⟨cfg', out, e, e2, _⟩
        rw [h1] at e; cases e; rw [h3] at e2; cases e2
      · have hend : (runLoop env a fs2 [.ok out]).2 = if readText fs2 a.path = some out then .ok else .err := by
          simp only [runLoop, hc, if_true, say, hso]
          cases hrt : readText fs2 a.path with
          | none => simp
          | some o => by_cases ho : o = out <;> simp [ho]
        rw [hend]
        by_cases ho : readText fs2 a.path = some out
        · rw [if_pos ho]
          refine ⟨⟨fun _ => ⟨cfg, out, h1, h3, ho⟩, fun _ => by simp [endCode, hso]⟩, .inl (by simp [endCode, hso])⟩
        · rw [if_neg ho]
          refine ⟨⟨fun he => by simp [endCode] at he, ?_⟩, .inr (.inl rfl)⟩
          rintro ⟨cfg', out', e, e2, e3⟩
          rw [h1] at e; cases e; rw [h3] at e2; cases e2; exact absurd e3 ho

/-- **C34**: `--check` together with `--write` is rejected before anything happens. -/
theorem C34_check_conflicts_with_write (env : Env) (a : Args) (fs fs2 : Fs) (tr : List Io) (hc : a.check = true)
    (hw : a.write = true) (h : Exec env a fs fs2 tr) : tr = [.exit 2] := by
  simpa [Exec, getArgs, hc, hw] using h

/-! ## C35 -/

/-- Everything printed to stdout. -/
def printed (tr : List Io) : Str := (tr.filterMap (fun | .stdout s => some s | _ => none)).flatten

theorem printed_append (a b : List Io) : printed (a ++ b) = printed a ++ printed b := by
  simp [printed]

/-- **C35**: without `--write` (and `--check`) no file is ever changed; if formatting succeeds, stdout gets exactly the
formatted text followed by a newline, otherwise nothing (besides the optional timing). -/
theorem C35_dry_run (env : Env) (a : Args) (fs fs2 : Fs) (tr : List Io) (hc : a.check = false) (hw : a.write = false)
    (ht : a.time = false) (hso : env.stdoutOk = true) (h : Exec env a fs fs2 tr) :
    NeverWrites tr ∧
    (∀ cfg out, env.config fs a.config = some cfg → env.formatted cfg fs a.path = some out →
      printed tr = out ++ ['\n'] ∧ Exits tr 0) ∧
    ((∀ cfg, env.config fs a.config = some cfg → env.formatted cfg fs a.path = none) →
      printed tr = [] ∧ (Exits tr 1 ∨ Killed tr)) := by
  have hv : (a.check && a.write) = false := by simp [hw]
  have hpc : printed (configIo a.config) = [] := by cases a.config <;> rfl
  have hpf : ∀ r, printed (finishMain env a r) = [] := by intro r; cases r <;> simp [finishMain, ht, printed]
  rcases exec_cases h hv with ⟨h1, rfl⟩ | ⟨cfg, h1, h2⟩
  · refine ⟨neverWrites_of_quiet (by simp [quiet_configIo, quiet_finish]), fun cfg out e _ => (by rw [h1] at e; cases e),
      fun _ => ⟨by rw [printed_append, hpc, hpf]; rfl, .inl ((exits_finish _ _ _ _ _).2 rfl)⟩⟩
  · rcases h2 with ⟨h2, h3, rfl⟩ | ⟨h2, r, h3, rfl⟩
    · refine ⟨neverWrites_of_quiet (by simp [quiet_configIo, Io.quiet]),
        fun cfg out e e2 => (by rw [h1] at e; cases e; rw [h3] at e2; cases e2),
        fun _ => ⟨by rw [printed_append, hpc]; rfl, .inr (killed_abort _ _)⟩⟩
    · have hre : configIo a.config ++ .read a.path ::
          ((runLoop env a fs2 [r]).1 ++ finishMain env a (runLoop env a fs2 [r]).2) =
          (configIo a.config ++ .read a.path :: (runLoop env a fs2 [r]).1) ++
            finishMain env a (runLoop env a fs2 [r]).2 := by simp
      rw [hre]
      rcases h3 with ⟨rfl, h3⟩ | ⟨out, rfl, h3⟩
      · have e1 : runLoop env a fs2 [panicked] = ([], .err) := rfl
        rw [e1]
        refine ⟨neverWrites_of_quiet (by simp [quiet_configIo, quiet_finish, Io.quiet]),
          fun cfg out e e2 => (by rw [h1] at e; cases e; rw [h3] at e2; cases e2), fun _ => ⟨?_, ?_⟩⟩
        · rw [printed_append, printed_append, hpc, hpf]; rfl
        · exact .inl ((exits_finish _ _ _ _ _).2 rfl)
      · have e1 : runLoop env a fs2 [.ok out] = ([.stdout (out ++ ['\n'])], .ok) := by
          simp [runLoop, hc, hw, say, hso]
        rw [e1]
        refine ⟨neverWrites_of_quiet (by simp [quiet_configIo, quiet_finish, Io.quiet]), ?_, ?_⟩
        · intro cfg' out' e e2
          rw [h1] at e; cases e; rw [h3] at e2; cases e2
          refine ⟨?_, (exits_finish _ _ _ _ _).2 (by simp [endCode, ht])⟩
          rw [printed_append, printed_append, hpc, hpf]
          simp [printed]
        · intro hn
          have := hn cfg h1
          rw [h3] at this; cases this

/-- **C35** also holds when stdout is closed or a time is asked for: nothing is ever written to a file. -/
theorem C35_never_writes (env : Env) (a : Args) (fs fs2 : Fs) (tr : List Io) (hw : a.write = false)
    (h : Exec env a fs fs2 tr) : NeverWrites tr := by
  by_cases hc : a.check = true
  · exact (C34_check env a fs fs2 tr hc hw h).1
  · have hv : (a.check && a.write) = false := by simp [hw]
    rcases exec_cases h hv with ⟨h1, rfl⟩ | ⟨cfg, h1, ⟨h2, h3, rfl⟩ | ⟨h2, r, h3, rfl⟩⟩
    · exact neverWrites_of_quiet (by simp [quiet_configIo, quiet_finish])
    · exact neverWrites_of_quiet (by simp [quiet_configIo, Io.quiet])
    · have hq : (runLoop env a fs2 [r]).1.all Io.quiet = true := by
        cases r with
        | error e => rfl
        | ok v => simp only [runLoop, hc, hw, say]; cases env.stdoutOk <;> rfl
      exact neverWrites_of_quiet (by simp [quiet_configIo, quiet_finish, Io.quiet, hq])

/-! ## C36, C37 -/

theorem applyAll_append (fs : Fs) (a b : List Io) : applyAll fs (a ++ b) = applyAll (applyAll fs a) b := by
  simp [applyAll]

theorem applyAll_quiet (fs : Fs) (a : List Io) (h : a.all Io.quiet = true) : applyAll fs a = fs :=
  neverWrites_of_quiet h a (List.prefix_refl a) fs

theorem applyAll_appends (p : Path) (pieces : List Bytes) : ∀ (fs : Fs) (b : Bytes), fs p = some b →
    applyAll fs (pieces.map (.append p)) p = some (b ++ pieces.flatten) ∧
    ∀ q, q ≠ p → applyAll fs (pieces.map (.append p)) q = fs q := by
  induction pieces with
  | nil => intro fs b h; simp [applyAll, h]
  | cons x xs ih =>
    intro fs b h
    have h1 : Io.apply fs (.append p x) p = some (b ++ x) := by simp [Io.apply, h]
    have := ih (Io.apply fs (.append p x)) (b ++ x) h1
    simp only [List.map_cons, applyAll, List.foldl_cons] at this ⊢
    refine ⟨by rw [this.1]; simp, fun q hq => ?_⟩
    rw [this.2 q hq]
    simp [Io.apply, hq]

theorem applyAll_writeIo (fs : Fs) (p : Path) (pieces : List Bytes) :
    applyAll fs (writeIo p pieces) p = some pieces.flatten ∧
    ∀ q, q ≠ p → applyAll fs (writeIo p pieces) q = fs q := by
  have h1 : Io.apply fs (.truncate p) p = some [] := by simp [Io.apply]
  have := applyAll_appends p pieces _ _ h1
  simp only [writeIo, applyAll, List.foldl_cons] at this ⊢
  refine ⟨by simpa using this.1, fun q hq => ?_⟩
  rw [this.2 q hq]
  simp [Io.apply, hq]

/-- The shape of a `--write` run. -/
theorem write_cases {env : Env} {a : Args} {fs fs2 : Fs} {tr : List Io} (hw : a.write = true) (hc : a.check = false)
    (h : Exec env a fs fs2 tr) :
    (tr.all Io.quiet = true ∧ (Exits tr 1 ∨ Killed tr)) ∨
    ∃ cfg out, env.config fs a.config = some cfg ∧ env.formatted cfg fs a.path = some out ∧
      ∃ pre pieces post, tr = pre ++ writeIo a.path pieces ++ post ∧ pre.all Io.quiet = true ∧
        post.all Io.quiet = true ∧
        ((env.write a.path (encode out) = .fails pieces ∧ Exits tr 1) ∨
         (env.write a.path (encode out) = .succeeds pieces ∧
          Exits tr (if env.stdoutOk then 0 else 101))) := by
  have hv : (a.check && a.write) = false := by simp [hc]
  rcases exec_cases h hv with ⟨h1, rfl⟩ | ⟨cfg, h1, ⟨h2, h3, rfl⟩ | ⟨h2, r, h3, rfl⟩⟩
  · exact .inl ⟨by simp [quiet_configIo, quiet_finish], .inl ((exits_finish _ _ _ _ _).2 rfl)⟩
  · exact .inl ⟨by simp [quiet_configIo, Io.quiet], .inr (killed_abort _ _)⟩
  · have hre : configIo a.config ++ .read a.path ::
        ((runLoop env a fs2 [r]).1 ++ finishMain env a (runLoop env a fs2 [r]).2) =
        (configIo a.config ++ .read a.path :: (runLoop env a fs2 [r]).1) ++
          finishMain env a (runLoop env a fs2 [r]).2 := by simp
    rw [hre]
    rcases h3 with ⟨rfl, h3⟩ | ⟨out, rfl, h3⟩
    · left
      have e1 : runLoop env a fs2 [panicked] = ([], .err) := rfl
      rw [e1]
      exact ⟨by simp [quiet_configIo, quiet_finish, Io.quiet], .inl ((exits_finish _ _ _ _ _).2 rfl)⟩
    · cases hwr : env.write a.path (encode out) with
      | openFails =>
        left
        have e1 : runLoop env a fs2 [.ok out] = ([], .err) := by simp [runLoop, hc, hw, hwr]
        rw [e1]
        exact ⟨by simp [quiet_configIo, quiet_finish, Io.quiet], .inl ((exits_finish _ _ _ _ _).2 rfl)⟩
      | fails pieces =>
        right
        have e1 : runLoop env a fs2 [.ok out] = (writeIo a.path pieces, .err) := by simp [runLoop, hc, hw, hwr]
        rw [e1]
        refine ⟨cfg, out, h1, h3, configIo a.config ++ [.read a.path], pieces, finishMain env a .err, by simp,
          by simp [quiet_configIo, Io.quiet], quiet_finish _ _ _, .inl ⟨hwr, (exits_finish _ _ _ _ _).2 rfl⟩⟩
      | succeeds pieces =>
        right
        refine ⟨cfg, out, h1, h3, configIo a.config ++ [.read a.path], pieces, ?_⟩
        cases hso : env.stdoutOk with
        | true =>
          have e1 : runLoop env a fs2 [.ok out] =
              (writeIo a.path pieces ++ [.stdout (msgWritten ++ ['\n'])], .ok) := by
            simp [runLoop, hc, hw, hwr, say, hso]
          rw [e1]
          refine ⟨.stdout (msgWritten ++ ['\n']) :: finishMain env a .ok, by simp,
            by simp [quiet_configIo, Io.quiet], by simp [quiet_finish, Io.quiet], .inr ⟨hwr, ?_⟩⟩
          rw [exits_finish]
          simp [endCode, hso]
        | false =>
          have e1 : runLoop env a fs2 [.ok out] = (writeIo a.path pieces, .panic) := by
            simp [runLoop, hc, hw, hwr, say, hso]
          rw [e1]
          refine ⟨finishMain env a .panic, by simp, by simp [quiet_configIo, Io.quiet], quiet_finish _ _ _,
            .inr ⟨hwr, ?_⟩⟩
          rw [exits_finish]
          rfl

/-- **C36**: `--write` never touches any other file; if formatting fails in any way no file is touched and the exit code is
1 (or the process is killed by a stack overflow); exit code 0 means that the file has exactly the formatted text. -/
theorem C36_write (env : Env) (a : Args) (fs fs2 : Fs) (tr : List Io) (hw : a.write = true) (hc : a.check = false)
    (hs : env.WritesSane) (h : Exec env a fs fs2 tr) :
    (∀ q, q ≠ a.path → ∀ fs', applyAll fs' tr q = fs' q) ∧
    ((∀ cfg, env.config fs a.config = some cfg → env.formatted cfg fs a.path = none) →
      NeverWrites tr ∧ (Exits tr 1 ∨ Killed tr)) ∧
    (Exits tr 0 → ∃ cfg out, env.config fs a.config = some cfg ∧ env.formatted cfg fs a.path = some out ∧
      ∀ fs', applyAll fs' tr a.path = some (encode out)) ∧
    (∀ cfg out pieces, env.config fs a.config = some cfg → env.formatted cfg fs a.path = some out →
      env.write a.path (encode out) = .succeeds pieces → env.stdoutOk = true → Exits tr 0) := by
  rcases write_cases hw hc h with ⟨hq, hend⟩ | ⟨cfg, out, h1, h3, pre, pieces, post, htr, hpre, hpost, hend⟩
  · refine ⟨fun q _ fs' => by rw [applyAll_quiet _ _ hq], fun _ => ⟨neverWrites_of_quiet hq, hend⟩, ?_, ?_⟩
    · intro h0
      unfold Exits at h0 hend
      unfold Killed at hend
      rcases hend with he | he <;> (rw [h0] at he; cases he)
    · -- a successful write is not quiet
      intro cfg out pieces h1 h3 h4 hso
      exfalso
      have hv : (a.check && a.write) = false := by simp [hc]
      rcases exec_cases h hv with ⟨h1', _⟩ | ⟨cfg', h1', ⟨_, h3', _⟩ | ⟨_, r, h3', htr⟩⟩
      · rw [h1] at h1'; cases h1'
      · rw [h1] at h1'; cases h1'; rw [h3] at h3'; cases h3'
      · rw [h1] at h1'; cases h1'
        rcases h3' with ⟨_, h3'⟩ | ⟨out', rfl, h3'⟩
        · rw [h3] at h3'; cases h3'
        · rw [h3] at h3'; cases h3'
          rw [htr] at hq
          simp [runLoop, hc, hw, h4, say, hso, writeIo, Io.quiet] at hq
  · have happ : ∀ fs' : Fs, applyAll fs' tr = applyAll fs' (writeIo a.path pieces) := by
      intro fs'
      rw [htr, applyAll_append, applyAll_append, applyAll_quiet _ pre hpre, applyAll_quiet _ post hpost]
    refine ⟨fun q hq fs' => by rw [happ]; exact (applyAll_writeIo fs' a.path pieces).2 q hq,
      fun hn => (by rw [hn cfg h1] at h3; cases h3), ?_, ?_⟩
    · intro h0
      rcases hend with ⟨_, he⟩ | ⟨hwr, _⟩
      · unfold Exits at h0 he; rw [h0] at he; cases he
      · refine ⟨cfg, out, h1, h3, fun fs' => ?_⟩
        have := hs a.path (encode out)
        rw [hwr] at this
        rw [happ, (applyAll_writeIo fs' a.path pieces).1, this]
    · intro cfg' out' pieces' e1 e2 e3 hso
      rw [h1] at e1; cases e1; rw [h3] at e2; cases e2
      rcases hend with ⟨hwr, _⟩ | ⟨_, he⟩
      · rw [hwr] at e3; cases e3
      · simpa [hso] using he

/-- **C37 is false**: in *every* `--write` run that gets as far as writing there is a moment (right after the file was
opened) at which the file is empty; killing the process there loses the old content and the new one (which is never
empty). -/
theorem C37_crash_loses_file (env : Env) (a : Args) (fs fs2 : Fs) (tr : List Io) (hw : a.write = true)
    (hc : a.check = false) (h : Exec env a fs fs2 tr) (h0 : Exits tr 0) :
    ∃ pre, pre <+: tr ∧ ∀ fs', applyAll fs' pre a.path = some [] ∧
      ∀ cfg out, env.config fs a.config = some cfg → env.formatted cfg fs a.path = some out → encode out ≠ [] := by
  rcases write_cases hw hc h with ⟨hq, hend⟩ | ⟨cfg, out, h1, h3, pre, pieces, post, htr, hpre, hpost, hend⟩
  · unfold Exits at h0 hend
    unfold Killed at hend
    rcases hend with he | he <;> (rw [h0] at he; cases he)
  · refine ⟨pre ++ [.truncate a.path], ?_, fun fs' => ⟨?_, ?_⟩⟩
    · rw [htr]; exact ⟨pieces.map (.append a.path) ++ post, by simp [writeIo]⟩
    · rw [applyAll_append, applyAll_quiet _ pre hpre]
      simp [applyAll, Io.apply]
    · intro cfg' out' e1 e2
      have : ∃ body, out' = body ++ ['\n'] := by
        unfold Env.formatted at e2
        split at e2
        · cases e2
        · split at e2
          · rename_i o hft
            cases e2
            exact C10_ends_with_newline _ _ _ _ _ hft
          · cases e2
      obtain ⟨body, rfl⟩ := this
      intro he
      have := congrArg List.length he
      simp [encode] at this
      have := Char.utf8Size_pos '\n'
      omega

/-- **C37** (what is left after a kill, in any case): the old content, or an initial part of the new content; all other
files are unchanged. -/
theorem C37_crash_content_partial (env : Env) (a : Args) (fs fs2 : Fs) (tr : List Io) (hw : a.write = true)
    (hc : a.check = false) (hs : env.WritesSane) (h : Exec env a fs fs2 tr) (pre : List Io) (hp : pre <+: tr) (fs' : Fs) :
    (applyAll fs' pre a.path = fs' a.path ∨ ∃ cfg out b, env.config fs a.config = some cfg ∧
      env.formatted cfg fs a.path = some out ∧ applyAll fs' pre a.path = some b ∧ b <+: encode out) ∧
    ∀ q, q ≠ a.path → applyAll fs' pre q = fs' q := by
  rcases write_cases hw hc h with ⟨hq, _⟩ | ⟨cfg, out, h1, h3, pre0, pieces, post, htr, hpre, hpost, hend⟩
  · have := neverWrites_of_quiet hq pre hp fs'
    exact ⟨.inl (by rw [this]), fun q _ => by rw [this]⟩
  · have hsane : pieces.flatten <+: encode out := by
      have := hs a.path (encode out)
      rcases hend with ⟨hwr, _⟩ | ⟨hwr, _⟩
      · rw [hwr] at this; exact this
      · rw [hwr] at this; rw [this]; exact List.prefix_refl _
    obtain ⟨rest, hrest⟩ := hp
    rw [htr, List.append_assoc] at hrest
    rcases List.append_eq_append_iff.1 hrest with ⟨c, e1, e2⟩ | ⟨c, e1, e2⟩
    · have hq : pre.all Io.quiet = true := by
        rw [e1] at hpre; simp only [List.all_append, Bool.and_eq_true] at hpre; exact hpre.1
      have := applyAll_quiet fs' pre hq
      exact ⟨.inl (by rw [this]), fun q _ => by rw [this]⟩
    · -- pre = pre0 ++ c, c a prefix of the write and what follows
      have hcw : ∃ ps, ps <+: pieces ∧ (applyAll fs' pre = applyAll fs' (writeIo a.path ps) ∨ applyAll fs' pre = fs') := by
        rw [e1, applyAll_append, applyAll_quiet _ pre0 hpre]
        cases c with
        | nil => exact ⟨[], List.nil_prefix, .inr rfl⟩
        | cons x c =>
          simp only [writeIo, List.cons_append, List.cons.injEq] at e2
          obtain ⟨rfl, e2⟩ := e2
          rcases List.append_eq_append_iff.1 e2 with ⟨d, f1, f2⟩ | ⟨d, f1, f2⟩
          · refine ⟨pieces, List.prefix_refl _, .inl ?_⟩
            rw [f1]
            have hd : d.all Io.quiet = true := by
              rw [f2] at hpost; simp only [List.all_append, Bool.and_eq_true] at hpost; exact hpost.1
            have hcons : Io.truncate a.path :: (pieces.map (Io.append a.path) ++ d) =
              writeIo a.path pieces ++ d := by simp [writeIo]
            rw [hcons, applyAll_append, applyAll_quiet _ d hd]
          · obtain ⟨l1, l2, rfl, g1, g2⟩ := List.map_eq_append_iff.1 f1
            refine ⟨l1, ⟨l2, rfl⟩, .inl ?_⟩
            rw [← g1]; rfl
      obtain ⟨ps, hps, he⟩ := hcw
      rcases he with he | he
      · have := applyAll_writeIo fs' a.path ps
        refine ⟨.inr ⟨cfg, out, ps.flatten, h1, h3, by rw [he, this.1], ?_⟩, fun q hq => by rw [he]; exact this.2 q hq⟩
        obtain ⟨r, rfl⟩ := hps
        rw [List.flatten_append] at hsane
        exact (List.prefix_append _ _).trans hsane
      · exact ⟨.inl (by rw [he]), fun q _ => by rw [he]⟩

/-! ## C38 -/

/-- **C38**: if `--check` exits with 0 then `--write` with the same configuration leaves every file byte for byte as it
is, if it exits with 0. -/
theorem C38_check_then_write (env env' : Env) (path : Path) (config : Option Path) (t t' : Bool) (fs : Fs)
    (tr tr' : List Io) (hso : env.stdoutOk = true) (hwd : env'.wd = env.wd) (htoml : env'.toml = env.toml)
    (hs : env'.WritesSane)
    (h : Exec env ⟨path, config, false, t, true⟩ fs fs tr) (h0 : Exits tr 0)
    (h' : Exec env' ⟨path, config, true, t', false⟩ fs fs tr') (h0' : Exits tr' 0) :
    applyAll fs tr' = fs := by
  obtain ⟨cfg, out, e1, e2, e3⟩ := ((C34_check env _ fs fs tr rfl rfl h).2 hso).1.1 h0
  obtain ⟨hother, _, hsucc, _⟩ := C36_write env' _ fs fs tr' rfl rfl hs h'
  obtain ⟨cfg', out', f1, f2, f3⟩ := hsucc h0'
  have hcfg : env'.config fs config = env.config fs config := by
    cases config with
    | none => rfl
    | some p => simp only [Env.config, configFromFile, htoml]
  have : cfg' = cfg := by
    rw [hcfg] at f1
    rw [f1] at e1
    exact Option.some.inj e1
  subst this
  have : out' = out := by
    simp only [Env.formatted, hwd] at f2
    simp only [Env.formatted] at e2
    rw [f2] at e2
    exact Option.some.inj e2
  subst this
  funext q
  by_cases hq : q = path
  · subst hq
    rw [f3 fs]
    simp only [readText] at e3
    cases hf : fs q with
    | none => rw [hf] at e3; cases e3
    | some b => rw [hf] at e3; rw [encode_decode e3]
  · exact hother q hq fs

/-! ## C39 -/

/-- **C39**: a run ends with code 0, 1, 2 (rejected flags), 101 (stdout closed) or by a signal (stack overflow). Code 0
implies that the configuration could be loaded and the file could be formatted; any formatting failure gives code 1
(or the signal). -/
theorem C39_exit_code (env : Env) (a : Args) (fs fs2 : Fs) (tr : List Io) (h : Exec env a fs fs2 tr) :
    (Exits tr 0 ∨ Exits tr 1 ∨ (Exits tr 2 ∧ a.check = true ∧ a.write = true) ∨
      (Exits tr 101 ∧ env.stdoutOk = false) ∨
      (Killed tr ∧ ∃ cfg, env.config fs a.config = some cfg ∧ env.Overflows cfg fs a.path)) ∧
    (Exits tr 0 → ∃ cfg out, env.config fs a.config = some cfg ∧ env.formatted cfg fs a.path = some out) ∧
    ((a.check && a.write) = false → (env.config fs a.config = none ∨ ∃ cfg, env.config fs a.config = some cfg ∧
      ¬ env.Overflows cfg fs a.path ∧ env.formatted cfg fs a.path = none) → Exits tr 1) := by
  cases hv : (a.check && a.write) with
  | true =>
    have : tr = [.exit 2] := by simpa [Exec, getArgs, hv] using h
    subst this
    simp only [Bool.and_eq_true] at hv
    refine ⟨.inr (.inr (.inl ⟨rfl, hv.1, hv.2⟩)), fun h0 => ?_, fun hf => by cases hf⟩
    simp [Exits] at h0
  | false =>
    rcases exec_cases h hv with ⟨h1, rfl⟩ | ⟨cfg, h1, ⟨h2, h3, rfl⟩ | ⟨h2, r, h3, rfl⟩⟩
    · simp only [exits_finish]
      exact ⟨.inr (.inl rfl), fun e => by simp [endCode] at e, fun _ _ => rfl⟩
    · refine ⟨.inr (.inr (.inr (.inr ⟨killed_abort _ _, cfg, h1, h2⟩))), fun e => absurd e (exits_abort _ _ _), ?_⟩
      rintro - (e | ⟨cfg', e, h4, _⟩)
      · rw [h1] at e; cases e
      · rw [h1] at e; cases e; exact absurd h2 h4
    · have hre : configIo a.config ++ .read a.path ::
          ((runLoop env a fs2 [r]).1 ++ finishMain env a (runLoop env a fs2 [r]).2) =
          (configIo a.config ++ .read a.path :: (runLoop env a fs2 [r]).1) ++
            finishMain env a (runLoop env a fs2 [r]).2 := by simp
      rw [hre]
      simp only [exits_finish]
      rcases h3 with ⟨rfl, h3⟩ | ⟨out, rfl, h3⟩
      · have e1 : runLoop env a fs2 [panicked] = ([], .err) := rfl
        rw [e1]
        exact ⟨.inr (.inl rfl), fun e => by simp [endCode] at e, fun _ _ => rfl⟩
      · refine ⟨?_, fun _ => ⟨cfg, out, h1, h3⟩, ?_⟩
        · have hpan : (runLoop env a fs2 [.ok out]).2 = .panic → env.stdoutOk = false := by
            cases hso : env.stdoutOk with
            | false => intro _; rfl
            | true =>
              intro hp
              exfalso
              revert hp
              simp only [runLoop, say, hso]
              cases a.check <;> cases a.write <;> simp
              · cases env.write a.path (encode out) <;> simp
              · cases readText fs2 a.path with
                | none => simp
                | some o => by_cases ho : o = out <;> simp [ho]
              · cases readText fs2 a.path with
                | none => simp
                | some o => by_cases ho : o = out <;> simp [ho]
          cases he : (runLoop env a fs2 [.ok out]).2 with
          | err => exact .inr (.inl rfl)
          | panic => exact .inr (.inr (.inr (.inl ⟨rfl, hpan he⟩)))
          | ok =>
            cases hso : env.stdoutOk with
            | true => exact .inl (by simp [endCode, hso])
            | false =>
              cases ht : a.time with
              | true => exact .inr (.inr (.inr (.inl ⟨by simp [endCode, hso, ht], rfl⟩)))
              | false => exact .inl (by simp [endCode, ht])
        · rintro - (e | ⟨cfg', e, _, h4⟩)
          · rw [h1] at e; cases e
          · rw [h1] at e; cases e; rw [h3] at h4; cases h4

/-! ## C40 -/

/-- **C40**: without `--config` the configuration is 80 / 2. -/
theorem C40_defaults (env : Env) (fs : Fs) : createFromConfig env fs none = ([], some ⟨80, 2⟩) := rfl

/-- **C40**: a configuration file overrides exactly the keys it contains: each of the two numbers is the one given in the
file (it must be an integer from 0 to 4294967295) and the default if the key is absent. -/
theorem C40_overrides (env : Env) (fs : Fs) (p : Path) (w k : Nat) :
    (createFromConfig env fs (some p)).2 = some ⟨w, k⟩ ↔
      ∃ b s kvs, fs p = some b ∧ decode b = some s ∧ env.toml s = some kvs ∧
        (match kvs.lookup "max_width" with
          | none => w = 80
          | some v => v = .int w ∧ w < 2 ^ 32) ∧
        (match kvs.lookup "indent_size" with
          | none => k = 2
          | some v => v = .int k ∧ k < 2 ^ 32) := by
  have hl : ∀ (kvs : List (String × TomlVal)) (key : String),
      kvs.lookup key = (kvs.find? (fun kv => kv.1 == key)).map (·.2) := by
    intro kvs key
    induction kvs with
    | nil => rfl
    | cons kv kvs ih =>
      obtain ⟨a, b⟩ := kv
      simp only [List.lookup, List.find?]
      by_cases h : key = a
      · subst h; simp
      · have h' : ¬ a = key := fun e => h e.symm
        have e1 : (key == a) = false := by simp [h]
        have e2 : (a == key) = false := by simp [h']
        simp only [e1, e2, ih]
  have hu : ∀ (kvs : List (String × TomlVal)) (key : String) (d x : Nat), u32Field kvs key d = some x ↔
      (match kvs.lookup key with
        | none => x = d
        | some v => v = .int x ∧ x < 2 ^ 32) := by
    intro kvs key d x
    rw [hl, u32Field]
    cases hf : kvs.find? (fun kv => kv.1 == key) with
    | none => simp [eq_comm]
    | some kv =>
      obtain ⟨a, v⟩ := kv
      cases v with
      | other => simp
      | int i =>
        simp only [Option.map_some, TomlVal.int.injEq]
        split
        · rename_i hb
          simp only [Option.some.injEq]
          constructor
          · rintro rfl; omega
          · rintro ⟨rfl, _⟩; simp
        · rename_i hb
          constructor
          · intro e; cases e
          · rintro ⟨rfl, hx⟩
            exact absurd ⟨by omega, by omega⟩ hb
  simp only [createFromConfig, configFromFile, readText]
  cases hf : fs p with
  | none => simp
  | some b =>
    cases hd : decode b with
    | none => simp [hd]
    | some s =>
      cases ht : env.toml s with
      | none => simp [hd, ht]
      | some kvs =>
        have hex : ∀ P : List (String × TomlVal) → Prop,
            (∃ b' s' kvs', some b = some b' ∧ decode b' = some s' ∧ env.toml s' = some kvs' ∧ P kvs') ↔ P kvs := by
          intro P
          constructor
          · rintro ⟨b', s', kvs', e1, e2, e3, hP⟩
            cases e1; rw [hd] at e2; cases e2; rw [ht] at e3; cases e3; exact hP
          · exact fun hP => ⟨b, s, kvs, rfl, hd, ht, hP⟩
        rw [hex (fun kvs => (match kvs.lookup "max_width" with
          | none => w = 80
          | some v => v = .int w ∧ w < 2 ^ 32) ∧
        (match kvs.lookup "indent_size" with
          | none => k = 2
          | some v => v = .int k ∧ k < 2 ^ 32)), ← hu, ← hu]
        simp only [hd, ht, configOf]
        rw [show defaultMaxWidth = 80 from rfl, show defaultIndentSize = 2 from rfl]
        cases h1 : u32Field kvs "max_width" 80 with
        | none => simp
        | some w' =>
          cases h2 : u32Field kvs "indent_size" 2 with
          | none => simp
          | some k' => simp

/-- **C40**: if the configuration file is missing or malformed, the run fails with code 1 having read nothing but the
configuration file and having written nothing. -/
theorem C40_bad_config_fails_first (env : Env) (a : Args) (fs fs2 : Fs) (tr : List Io) (p : Path)
    (hv : (a.check && a.write) = false) (hc : a.config = some p)
    (hbad : fs p = none ∨ ∃ b, fs p = some b ∧ (decode b = none ∨ ∃ s, decode b = some s ∧ env.toml s = none))
    (h : Exec env a fs fs2 tr) :
    Exits tr 1 ∧ NeverWrites tr ∧ ∀ q, Io.read q ∈ tr → q = p := by
  have hn : env.config fs a.config = none := by
    simp only [hc, Env.config, configFromFile, readText]
    rcases hbad with h | ⟨b, h, h' | ⟨s, h', h''⟩⟩
    · simp [h]
    · simp [h, h']
    · simp [h, h', h'']
  rcases exec_cases h hv with ⟨h1, rfl⟩ | ⟨cfg, h1, _⟩
  · refine ⟨(exits_finish _ _ _ _ _).2 rfl, neverWrites_of_quiet (by simp [quiet_configIo, quiet_finish]), ?_⟩
    intro q hq
    simpa [hc, configIo, finishMain] using hq
  · rw [hn] at h1; cases h1

/-! ## C29 -/

/-- **C29** for `--write`: a file whose tree contains an error node is left untouched, as is every other file, and the exit
code is not 0. -/
theorem C29_write_leaves_file (env : Env) (a : Args) (fs fs2 : Fs) (tr : List Io) (hw : a.write = true)
    (hc : a.check = false) (hs : env.WritesSane) (src : Str) (hr : readText fs a.path = some src) (m : Node)
    (hm : m ∈ (env.wd.parse src).subtree) (he : m.err = true) (h : Exec env a fs fs2 tr) :
    NeverWrites tr ∧ (Exits tr 1 ∨ Killed tr) := by
  refine (C36_write env a fs fs2 tr hw hc hs h).2.1 fun cfg _ => ?_
  have := C29_syntax_error_never_formatted env.wd.checks env.wd.depth cfg _ m hm he
  simp only [Env.formatted, hr]
  cases hft : formatTree env.wd.checks env.wd.depth cfg (env.wd.parse src) with
  | ok out => exact absurd hft (this out)
  | error e => rfl

/-! ### Non-vacuity -/

/-- Example environment: the file system writes everything in two pieces. -/
def exEnv : Env where
  wd := exWorld
  toml := fun s => if s = [] then some [("max_width", .int 40), ("x", .other)] else none
  write := fun _ b => .succeeds [b.take 3, b.drop 3]
  stdoutOk := true
  elapsed := []

/-- Result of formatting `exClass`. -/
def exText : Str := "// y\nclass A {\n  /* x */\n}\n".toList

/-- Example file system: a class, the same class already formatted, a good and a bad configuration file. -/
def exFs : Fs := fun p =>
  if p = "A.cls" then some (encode ['a']) else if p = "F.cls" then some (encode exText)
  else if p = "c.toml" then some [] else if p = "d.toml" then some (encode ['x']) else none

example : exEnv.WritesSane := by intro p d; simp [exEnv]

theorem exRead_A : readText exFs "A.cls" = some ['a'] := by simp [readText, exFs, decode_encode]
theorem exRead_F : readText exFs "F.cls" = some exText := by simp [readText, exFs, decode_encode]

theorem exRuns (a : Args) (src : Str) (hp : readText exFs a.path = some src) (hsrc : src ≠ ['b']) (hc : a.config = none)
    (hv : (a.check && a.write) = false) :
    Exec exEnv a exFs exFs (.read a.path ::
      ((runLoop exEnv a exFs [.ok exText]).1 ++ finishMain exEnv a (runLoop exEnv a exFs [.ok exText]).2)) := by
  have hft : formatTree true 9 ⟨80, 2⟩ exClass = .ok exText := by decide
  have hres : fileOutcome exEnv.wd ⟨80, 2⟩ (readText exFs) a.path = some (.ok exText) := by
    simp only [fileOutcome, hp, exEnv, exWorld, hsrc, if_false, hft]
  obtain ⟨sched, s, h1, h2, h3⟩ := C27_any_order_possible exEnv.wd ⟨80, 2⟩ (readText exFs) [a.path]
    [.ok exText] (by simp only [List.map_cons, List.map_nil, hres]; exact List.Perm.refl _)
  unfold Exec
  simp only [getArgs, hv, Bool.false_eq_true, if_false, hc, createFromConfig]
  exact ⟨sched, s, h1, .inr ⟨h2, by rw [h3]; simp⟩⟩

/-- A `--write` run that succeeds. -/
example : ∃ tr, Exec exEnv ⟨"A.cls", none, true, true, false⟩ exFs exFs tr ∧ Exits tr 0 :=
  ⟨_, exRuns _ _ exRead_A (by decide) rfl rfl, by rw [← List.cons_append]; exact (exits_finish _ _ _ _ _).2 rfl⟩
/-- A run without flags. -/
example : ∃ tr, Exec exEnv ⟨"A.cls", none, false, false, false⟩ exFs exFs tr ∧ printed tr = exText ++ ['\n'] :=
  ⟨_, exRuns _ _ exRead_A (by decide) rfl rfl, by decide⟩
/-- `--check` on an unformatted file. -/
example : ∃ tr, Exec exEnv ⟨"A.cls", none, false, false, true⟩ exFs exFs tr ∧ Exits tr 1 := by
  refine ⟨_, exRuns _ _ exRead_A (by decide) rfl rfl, ?_⟩
  rw [← List.cons_append]
  refine (exits_finish _ _ _ _ _).2 ?_
  simp only [runLoop, exRead_A]
  rfl
/-- `--check` and `--write` on a formatted file (the hypotheses of C38). -/
example : (∃ tr, Exec exEnv ⟨"F.cls", none, false, false, true⟩ exFs exFs tr ∧ Exits tr 0) ∧
    ∃ tr, Exec exEnv ⟨"F.cls", none, true, false, false⟩ exFs exFs tr ∧ Exits tr 0 := by
  refine ⟨⟨_, exRuns _ _ exRead_F (by decide) rfl rfl, ?_⟩, ⟨_, exRuns _ _ exRead_F (by decide) rfl rfl, ?_⟩⟩
  · rw [← List.cons_append]
    refine (exits_finish _ _ _ _ _).2 ?_
    simp only [runLoop, exRead_F]
    rfl
  · rw [← List.cons_append]; exact (exits_finish _ _ _ _ _).2 rfl
/-- A configuration that overrides one key. -/
example : (createFromConfig exEnv exFs (some "c.toml")).2 = some ⟨40, 2⟩ := by
  rw [C40_overrides]
  exact ⟨[], [], [("max_width", .int 40), ("x", .other)], by simp [exFs], decode_encode [], by simp [exEnv],
    by simp [List.lookup], by simp [List.lookup]⟩
/-- A malformed configuration file. -/
example : ∃ b, exFs "d.toml" = some b ∧ (decode b = none ∨ ∃ s, decode b = some s ∧ exEnv.toml s = none) :=
  ⟨encode ['x'], by simp [exFs], .inr ⟨['x'], decode_encode _, by simp [exEnv]⟩⟩
/-- Not valid UTF-8. -/
example : decode [255] = none := by decide

end Afmt
