import Verif.Trail.Mach
import Verif.Lines.Tac

/-!
# White space at the ends of lines: rules for the abstract machine
-/

namespace Afmt.Trail
open Afmt.Prog (Ins)
open Afmt.Lines (syms symss symss_append P P_bind P_ok P_pure P_err P_any P_mono P_get P_of P_guard InL InO InL_vec InL_named InL_try InL_filter
  InL_drop InL_tail InL_head InL_last InO_K InO_N InO_first mapR_ne fullKinds callable)

variable [Gate]

/-- Running the machine over the programs from `a` ends at most in `e`. -/
def T (a : St) (ps : List Prog) (e : St) : Prop := run a (symss ps) ≤ e

/-- The same for the strictest machine, which does not depend on the gate. -/
def T0 (a : St) (ps : List Prog) (e : St) : Prop := @run Gate.sharp a (symss ps) ≤ e
/-- A text for the strictest machine. -/
def tx0 (a : St) (s : Str) : St := @tx Gate.sharp a s

instance (a : St) (ps : List Prog) (e : St) : Decidable (T0 a ps e) := inferInstanceAs (Decidable (@run Gate.sharp a (symss ps) ≤ e))

theorem T_of0 {a e : St} {ps : List Prog} (h : T0 a ps e) : T a ps e := St.le_trans (run_le a _) h
theorem tx_of0 {a e : St} {s : Str} (h : tx0 a s ≤ e) : tx a s ≤ e := St.le_trans (tx_le a s) h

/-- From every state the program ends at most in `e`. -/
def Kid (e : St) (p : Prog) : Prop := T .L [p] e
/-- `Kid` for all programs. -/
def Kids (e : St) (ps : List Prog) : Prop := ∀ p ∈ ps, Kid e p
/-- `Kid` for the program, if any. -/
def OptK (e : St) (o : Option Prog) : Prop := ∀ p, o = some p → Kid e p
/-- `Kid` for all members. -/
def Mems (e : St) (ms : List (Bool × Prog)) : Prop := ∀ m ∈ ms, Kid e m.2
/-- A list of programs that may follow a visible character. -/
def Seg (ps : List Prog) : Prop := T .N ps .N
/-- A program that may follow a visible character. -/
def Led (p : Prog) : Prop := T .N [p] .N
/-- `Led` for all programs. -/
def Leds (ps : List Prog) : Prop := ∀ p ∈ ps, Led p
/-- `Led` for the program, if any. -/
def OptLed (o : Option Prog) : Prop := ∀ p, o = some p → Led p
/-- A text that has neither line breaks at its start nor white space at the ends of its lines and that the gate admits. -/
def Tight (s : Str) : Prop := s ≠ [] ∧ front s = true ∧ tidyEnds s = true ∧ Gate.ok s = true ∧ (Gate.on = true → lead s = false)

omit [Gate] in
theorem le_L {a : St} (h : a ≠ .bad) : a ≤ .L := by cases a <;> first | decide | exact absurd rfl h

theorem T_nil {a e : St} (h : a ≤ e) : T a [] e := h
theorem T_app {a b e : St} {ps qs : List Prog} (h : T a ps b) (h' : T b qs e) : T a (ps ++ qs) e := by
  unfold T at *
  rw [symss_append, run_append]
  exact St.le_trans (run_mono h _) h'
theorem T_cons {a b e : St} {p : Prog} {qs : List Prog} (h : T a [p] b) (h' : T b qs e) : T a (p :: qs) e :=
  T_app (ps := [p]) h h'
theorem T_start {a a' e : St} {ps : List Prog} (h : a ≤ a') (h' : T a' ps e) : T a ps e := St.le_trans (run_mono h _) h'
theorem T_end {a e e' : St} {ps : List Prog} (h : T a ps e) (h' : e ≤ e') : T a ps e' := St.le_trans h h'

theorem T_concat {a e : St} {ps qs : List Prog} (h : T a (ps ++ qs) e) : T a (.concat ps :: qs) e := by
  unfold T at *; rw [symss_append] at h; rw [symss, syms]; exact h
theorem T_concat_last {a e : St} {ps : List Prog} (h : T a ps e) : T a [.concat ps] e := T_concat (by rwa [List.append_nil])
omit [Gate] in
theorem fl_of {a : St} (h : a ≠ .M) : fl a = a := by revert h; cases a <;> decide
theorem T_group {a e : St} {p : Prog} {qs : List Prog} (ha : a ≠ .M) (h : T a (p :: qs) e) : T a (.group p :: qs) e := by
  unfold T at *; rw [symss] at h; rw [symss, syms, List.cons_append, run, step, fl_of ha]; exact h
theorem T_indent {a e : St} {p : Prog} {qs : List Prog} (h : T a (p :: qs) e) : T a (.indent p :: qs) e := by
  unfold T at *; rw [symss] at h; rw [symss, syms]; exact h
theorem T_dedent {a e : St} {p : Prog} {qs : List Prog} (h : T a (p :: qs) e) : T a (.dedent p :: qs) e := by
  unfold T at *; rw [symss] at h; rw [symss, syms]; exact h
theorem T_ifDangling {a e : St} {i : Nat} {p q : Prog} {qs : List Prog} (h : T a (q :: qs) e) :
    T a (.ifDangling i p q :: qs) e := by
  unfold T at *; rw [symss] at h; rw [symss, syms]; exact h
theorem T_pre {a e : St} {i : Nat} {qs : List Prog} (h : T a qs e) : T a (.pre i :: qs) e := by
  unfold T at *; rw [symss, syms]; exact h
theorem T_post {a e : St} {i : Nat} {qs : List Prog} (h : T a qs e) : T a (.post i :: qs) e := by
  unfold T at *; rw [symss, syms]; exact h
theorem T_rootDangling {a e : St} {i : Nat} {qs : List Prog} (h : T a qs e) : T a (.rootDangling i :: qs) e := by
  unfold T at *; rw [symss, syms]; exact h
theorem T_dangling {a e : St} {i : Nat} {qs : List Prog} (h : T a qs e) : T a (.dangling i :: qs) e := by
  unfold T at *; rw [symss, syms]; exact h
theorem T_force {a e : St} {qs : List Prog} (h : T a qs e) : T a (.forceBreak :: qs) e := by
  unfold T at *; rw [symss, syms]; exact h
theorem T_fail {a e : St} {x : Panic} {qs : List Prog} (h : T a qs e) : T a (.fail x :: qs) e := by
  unfold T at *; rw [symss, syms]; exact h
omit [Gate] in
theorem brk_N {a : St} (h : a ≤ .N) : brk a = .B := by revert h; cases a <;> decide
omit [Gate] in
theorem mb_N {a : St} (h : a ≤ .N) : mb a = .M := by revert h; cases a <;> decide
theorem T_nlM {a e : St} {qs : List Prog} (ha : a ≤ .N) (h : T .M qs e) : T a (.nl :: qs) e := by
  unfold T at *; rw [symss, syms, List.singleton_append, run, step, mb_N ha]; exact h
theorem T_nl {a e : St} {qs : List Prog} (ha : a ≤ .N) (h : T .B qs e) : T a (.nl :: qs) e := T_nlM ha (T_start (by decide) h)
theorem T_nlLast {a e : St} (ha : a ≤ .N) (h : St.M ≤ e) : T a [.nl] e := T_nlM ha h
theorem T_soft {a e : St} {qs : List Prog} (ha : a ≤ .N) (h : T .B qs e) : T a (.softline :: qs) e := by
  unfold T at *; rw [symss, syms, List.singleton_append, run, step, brk_N ha]; exact h
theorem T_mayM {a e : St} {qs : List Prog} (ha : a ≤ .N) (h : T .M qs e) : T a (.maybeline :: qs) e := by
  unfold T at *; rw [symss, syms, List.singleton_append, run, step, mb_N ha]; exact h
theorem T_maybe {a e : St} {qs : List Prog} (ha : a ≤ .N) (h : T .B qs e) : T a (.maybeline :: qs) e := T_mayM ha (T_start (by decide) h)
omit [Gate] in
theorem brl_N {a : St} (h : a ≤ .N) : brl a = .L := by revert h; cases a <;> decide
theorem T_sep {a e : St} {b : Bool} {qs : List Prog} (ha : a ≤ .N) (h : T .L qs e) : T a (.sep b :: qs) e := by
  unfold T at *; rw [symss, syms, List.singleton_append, run, step, brl_N ha]; exact h

/-- A text. -/
theorem T_txt {a b e : St} {s : Str} {qs : List Prog} (h : tx a s ≤ b) (h' : T b qs e) : T a (.txt s :: qs) e := by
  unfold T at *
  rw [symss, syms, List.singleton_append, run, step]
  exact St.le_trans (run_mono h _) h'

theorem T_punct {a e : St} {p : Punc} {qs : List Prog} (ha : a ≠ .bad) (h : T .N qs e) : T a (.punct p :: qs) e := by
  unfold T at *
  rw [symss, syms, List.singleton_append, run, step]
  have h1 : tx a p.text ≤ .N := tx_of0 (by unfold Punc.text; split <;> (revert ha; cases a <;> decide))
  exact St.le_trans (run_mono h1 _) h

theorem T_punctOpt {a e : St} {o : Option Punc} {qs : List Prog} (ha : a ≠ .bad) (h : T a qs e) :
    T a (Prog.punctOpt o ++ qs) e := by
  cases o with
  | none => exact h
  | some p => exact T_punct ha (T_start (St.N_le a) h)

theorem T_kid {a b e : St} {p : Prog} {qs : List Prog} (hk : Kid b p) (ha : a ≠ .bad) (h : T b qs e) : T a (p :: qs) e :=
  T_cons (T_start (le_L ha) hk) h

theorem T_optN {a e : St} {o : Option Prog} {qs : List Prog} (hk : OptK .N o) (ha : a ≠ .bad) (h : T a qs e) :
    T a (Prog.opt o ++ qs) e := by
  cases o with
  | none => exact h
  | some p => exact T_kid (hk p rfl) ha (T_start (St.N_le a) h)
theorem T_optB {a e : St} {o : Option Prog} {qs : List Prog} (hk : OptK .L o) (ha : a ≠ .bad) (h : T .L qs e) :
    T a (Prog.opt o ++ qs) e := by
  cases o with
  | none => exact T_start (le_L ha) h
  | some p => exact T_kid (hk p rfl) ha h
theorem T_optL {a e : St} {o : Option Prog} (h : T a (Prog.opt o ++ []) e) : T a (Prog.opt o) e := by
  rwa [List.append_nil] at h

/-- Kids one after the other. -/
theorem T_kidsN {a e : St} {ps qs : List Prog} (hk : Kids .N ps) (ha : a ≠ .bad) (h : T a qs e) : T a (ps ++ qs) e := by
  induction ps generalizing a with
  | nil => exact h
  | cons p ps ih =>
    exact T_kid (hk p (by simp)) ha (ih (fun q hq => hk q (by simp [hq])) (by decide) (T_start (St.N_le a) h))
theorem T_kidsB {a e : St} {ps qs : List Prog} (hk : Kids .B ps) (ha : a ≠ .bad) (h : T .L qs e) : T a (ps ++ qs) e := by
  induction ps generalizing a with
  | nil => exact T_start (le_L ha) h
  | cons p ps ih => exact T_kid (hk p (by simp)) ha (ih (fun q hq => hk q (by simp [hq])) (by decide))

theorem T_ite {a e : St} {c : Prop} [Decidable c] {ps ps' qs : List Prog} (h : T a (ps ++ qs) e) (h' : T a (ps' ++ qs) e) :
    T a ((if c then ps else ps') ++ qs) e := by split <;> assumption
theorem T_ite1 {a e : St} {c : Prop} [Decidable c] {p p' : Prog} {qs : List Prog} (h : T a (p :: qs) e) (h' : T a (p' :: qs) e) :
    T a ((if c then p else p') :: qs) e := by split <;> assumption
theorem T_iteL {a e : St} {c : Prop} [Decidable c] {ps ps' : List Prog} (h : T a ps e) (h' : T a ps' e) :
    T a (if c then ps else ps') e := by split <;> assumption

/-! ### Lists -/

/-- The separator may stand between programs that end in `b`. -/
def SepOk (b : St) (x : Ins) : Prop := T0 b x.progs .B
instance (b : St) (x : Ins) : Decidable (SepOk b x) := inferInstanceAs (Decidable (T0 b x.progs .B))

theorem T_interParts {b : St} {x : Ins} (hx : SepOk b x) : ∀ {ps : List Prog} {a : St}, a ≠ .bad → Kids b ps → ps ≠ [] →
    T a (Prog.intersperseParts x ps) b
  | [], a, _, _, h => absurd rfl h
  | [p], a, ha, hk, _ => by
    rw [Prog.intersperseParts]
    exact T_kid (hk p (by simp)) ha (St.le_refl _)
  | p :: q :: ps, a, ha, hk, _ => by
    rw [Prog.intersperseParts]
    · refine T_kid (hk p (by simp)) ha (T_app (T_of0 hx) ?_)
      exact T_interParts hx (by decide) (fun r hr => hk r (by simp [List.mem_cons.1 hr])) (by simp)
    · simp

theorem T_inter {a e : St} {x : Ins} {ps qs : List Prog} (hk : Kids .N ps) (ha : a ≠ .bad ∧ a ≠ .M) (hx : SepOk .N x)
    (h : T a qs e) : T a (Prog.intersperse ps x :: qs) e := by
  cases ps with
  | nil => exact T_txt (tx_of0 (show tx0 a [] ≤ a by revert ha; cases a <;> decide)) h
  | cons p ps => exact T_concat (T_app (T_interParts hx ha.1 hk (by simp)) (T_start (St.N_le a) h))
theorem T_inter1 {a b e : St} {x : Ins} {p : Prog} {ps qs : List Prog} (hk : Kids b (p :: ps)) (ha : a ≠ .bad) (hx : SepOk b x)
    (h : T b qs e) : T a (Prog.intersperse (p :: ps) x :: qs) e :=
  T_concat (T_app (T_interParts hx ha hk (by simp)) h)
theorem T_interNe {a b e : St} {x : Ins} {ps qs : List Prog} (hk : Kids b ps) (hne : ps ≠ []) (ha : a ≠ .bad) (hx : SepOk b x)
    (h : T b qs e) : T a (Prog.intersperse ps x :: qs) e := by
  cases ps with
  | nil => exact absurd rfl hne
  | cons p ps => exact T_inter1 hk ha hx h

/-- `surround` with opening and closing texts. -/
theorem T_surround {a e : St} {x : Ins} {o c : Str} {so pc : Option Prog} {ps qs : List Prog} (hk : Kids .N ps)
    (hx : SepOk .N x) (h1 : T0 a (.txt o :: (Prog.opt so).map .indent) .B) (h2 : T0 .N (Prog.opt pc ++ [.txt c]) .N)
    (h0 : T0 a [.txt o, .txt c] .N) (h : T .N qs e) :
    T a (Prog.surround ps x ⟨none, some o, so⟩ ⟨pc, some c, none⟩ :: qs) e := by
  cases ps with
  | nil =>
    rw [Prog.surround]
    exact T_concat (T_app (T_of0 h0) h)
  | cons p ps =>
    rw [Prog.surround]
    · refine T_concat ?_
      simp only [Prog.opt, Prog.optT, List.nil_append, List.append_nil, List.append_assoc]
      rw [← List.append_assoc]
      refine T_app (T_of0 h1) (T_indent (T_inter1 hk (by decide) hx ?_))
      have := T_app (T_of0 h2) h
      rwa [List.append_assoc] at this
    · simp

/-! ### Bodies -/

theorem T_bodyParts : ∀ {ms : List (Bool × Prog)} {a : St}, a ≠ .bad → Mems .N ms → ms ≠ [] → T a (Prog.bodyParts ms) .N
  | [], a, _, _, h => absurd rfl h
  | [(t, p)], a, ha, hk, _ => by
    rw [Prog.bodyParts]
    exact T_kid (hk (t, p) (by simp)) ha (St.le_refl _)
  | (tr, p) :: q :: ms, a, ha, hk, _ => by
    rw [Prog.bodyParts]
    · refine T_kid (hk (tr, p) (by simp)) ha (T_sep (St.le_refl _) ?_)
      exact T_bodyParts (by decide) (fun r hr => hk r (by simp [List.mem_cons.1 hr])) (by simp)
    · simp

theorem T_interBody {a e : St} {ms : List (Bool × Prog)} {qs : List Prog} (hk : Mems .N ms) (ha : a ≠ .bad ∧ a ≠ .M)
    (h : T a qs e) : T a (Prog.intersperseBody ms :: qs) e := by
  cases ms with
  | nil => exact T_txt (tx_of0 (show tx0 a [] ≤ a by revert ha; cases a <;> decide)) h
  | cons m ms => exact T_concat (T_app (T_bodyParts ha.1 hk (by simp)) (T_start (St.N_le a) h))
theorem T_interBodyNe {a e : St} {ms : List (Bool × Prog)} {qs : List Prog} (hk : Mems .N ms) (hne : ms ≠ []) (ha : a ≠ .bad)
    (h : T .N qs e) : T a (Prog.intersperseBody ms :: qs) e := by
  cases ms with
  | nil => exact absurd rfl hne
  | cons m ms => exact T_concat (T_app (T_bodyParts ha hk (by simp)) h)

theorem T_surroundBody {a e : St} {ms : List (Bool × Prog)} {qs : List Prog} (hk : Mems .N ms) (ha : a ≠ .bad)
    (h : T .N qs e) : T a (Prog.surroundBody ms :: qs) e := by
  refine T_start (le_L ha) ?_
  cases ms with
  | nil =>
    exact T_concat (T_txt (b := .N) (tx_of0 (by decide)) (T_nl (by decide) (T_txt (b := .N) (tx_of0 (by decide)) h)))
  | cons m ms =>
    rw [Prog.surroundBody]
    · refine T_concat (T_txt (b := .N) (tx_of0 (by decide)) (T_indent (T_nl (by decide) (T_indent (T_interBodyNe hk (by simp) (by decide) ?_)))))
      exact T_nl (by decide) (T_txt (b := .N) (tx_of0 (by decide)) h)
    · simp

theorem T_bracketBody {a e : St} {n : Loc} {ms : List (Bool × Prog)} {qs : List Prog} (hk : Mems .N ms) (ha : a ≠ .bad)
    (h : T .N qs e) : T a (Prog.New.bracketBody n ms :: qs) e :=
  T_concat (T_pre (T_ifDangling (T_concat (T_surroundBody hk ha (T_post h)))))

/-! ### Texts -/

theorem fine_lead {a : St} {s : Str} (h : Gate.on = true → lead s = false) : (!Gate.on || fine a s) = true := by
  cases ho : (Gate.on : Bool) with
  | false => rfl
  | true =>
    have := h ho
    cases a <;> simp [fine, this]
theorem tx_tight {a : St} {s : Str} (h : Tight s) (ha : a ≠ .bad) : tx a s = .N := by
  obtain ⟨h1, h2, h3, h4, h5⟩ := h
  rw [tidyEnds_eq, Bool.and_eq_true, Bool.not_eq_true'] at h3
  have hs : s.isEmpty = false := by cases s with | nil => exact absurd rfl h1 | cons => rfl
  rw [tx_of ha, h3.1, h3.2, h2, h4, fine_lead h5, hs]
  rfl
omit [Gate] in
theorem front_append {s r : Str} (h : s ≠ []) : front (s ++ r) = front s := by
  cases s with
  | nil => exact absurd rfl h
  | cons c s => rfl
omit [Gate] in
theorem lead_append {s r : Str} (h : s ≠ []) : lead (s ++ r) = lead s := by
  cases s with
  | nil => exact absurd rfl h
  | cons c s => rfl
theorem tx_blank {a : St} {s : Str} (h : Tight s) (ha : a ≠ .bad) : tx a (s ++ [' ']) = .B := by
  obtain ⟨h1, h2, h3, h4, h5⟩ := h
  rw [tidyEnds_eq, Bool.and_eq_true, Bool.not_eq_true'] at h3
  have hs : (s ++ [' ']).isEmpty = false := by simp
  have hi : inner (s ++ [' ']) = true := inner_append h3.1 rfl (fun _ => rfl)
  have he : ends (s ++ [' ']) = true := by rw [ends_append (by simp)]; rfl
  have hf : front (s ++ [' ']) = true := by rw [front_append h1]; exact h2
  have ho : Gate.ok (s ++ [' ']) = true := Gate.append _ _ h4 (Gate.base _ rfl rfl) h3.2
  rw [tx_of ha, hs, hi, hf, he, ho, fine_lead (by rw [lead_append h1]; exact h5)]
  rfl
theorem tx_blanks {a : St} {s : Str} (h : Tight s) (ha : a ≤ .N) : tx a (' ' :: (s ++ [' '])) = .B := by
  obtain ⟨h1, h2, h3, h4, h5⟩ := h
  rw [tidyEnds_eq, Bool.and_eq_true, Bool.not_eq_true'] at h3
  have hi : inner (' ' :: (s ++ [' '])) = true :=
    inner_append (a := [' ']) rfl (inner_append h3.1 rfl (fun _ => rfl)) (fun _ => (front_append h1 (r := [' '])).trans h2)
  have he : ends (' ' :: (s ++ [' '])) = true := by
    rw [show ' ' :: (s ++ [' ']) = (' ' :: s) ++ [' '] from rfl, ends_append (by simp)]; rfl
  have hf : front (' ' :: (s ++ [' '])) = true := rfl
  have ho : Gate.ok (' ' :: (s ++ [' '])) = true :=
    Gate.cons _ (Gate.append _ _ h4 (Gate.base _ rfl rfl) h3.2) (fun h => by rw [lead_append h1]; exact h5 h)
  have ha' : a = .N := by revert ha; cases a <;> decide
  subst ha'
  rw [tx_of (by decide), hi, hf, he, ho, show fine .N (' ' :: (s ++ [' '])) = true from rfl, Bool.or_true]
  rfl

theorem T_val {a e : St} {s : Str} {qs : List Prog} (h : Tight s) (ha : a ≠ .bad) (hq : T .N qs e) : T a (.txt s :: qs) e :=
  T_txt (by rw [tx_tight h ha]; exact St.le_refl _) hq
theorem T_txtR {a e : St} {s : Str} {qs : List Prog} (h : Tight s) (ha : a ≠ .bad) (hq : T .B qs e) : T a (Prog.txtR s :: qs) e :=
  T_txt (by rw [tx_blank h ha]; exact St.le_refl _) hq
theorem T_txtLR {a e : St} {s : Str} {qs : List Prog} (h : Tight s) (ha : a ≤ .N) (hq : T .B qs e) : T a (Prog.txtLR s :: qs) e :=
  T_txt (by rw [tx_blanks h ha]; exact St.le_refl _) hq
theorem T_kindt {a e : St} {k : String} {qs : List Prog} (h : Tight k.toList) (ha : a ≠ .bad) (hq : T .N qs e) :
    T a (Prog.t k :: qs) e := T_val h ha hq
theorem T_tN {a e : St} {s : String} {qs : List Prog} (h : tx0 a s.toList ≤ .N) (h' : T .N qs e) : T a (Prog.t s :: qs) e := T_txt (tx_of0 h) h'
theorem T_tB {a e : St} {s : String} {qs : List Prog} (h : tx0 a s.toList ≤ .B) (h' : T .B qs e) : T a (Prog.t s :: qs) e := T_txt (tx_of0 h) h'
theorem T_tL {a e : St} {s : String} {qs : List Prog} (h : tx0 a (' ' :: s.toList) ≤ .N) (h' : T .N qs e) : T a (Prog.tL s :: qs) e := T_txt (tx_of0 h) h'
theorem T_tR {a e : St} {s : String} {qs : List Prog} (h : tx0 a (s.toList ++ [' ']) ≤ .B) (h' : T .B qs e) : T a (Prog.tR s :: qs) e := T_txt (tx_of0 h) h'
theorem T_tLR {a e : St} {s : String} {qs : List Prog} (h : tx0 a (' ' :: (s.toList ++ [' '])) ≤ .B) (h' : T .B qs e) : T a (Prog.tLR s :: qs) e := T_txt (tx_of0 h) h'
theorem T_nilp {a e : St} {qs : List Prog} (ha : a ≠ .M) (h : T a qs e) : T a (Prog.nil :: qs) e := T_txt (tx_of0 (show tx0 a [] ≤ a by revert ha; cases a <;> decide)) h

/-! ### Wrappers -/

theorem T_wcp {a e : St} {i : Nat} {p : Option Punc} {ps qs : List Prog} (h : T a ps .N) (h' : T .N qs e) :
    T a (Prog.withCommentsAndPunc i p ps :: qs) e := by
  refine T_concat ?_
  simp only [List.cons_append, List.nil_append, List.append_assoc]
  exact T_pre (T_ifDangling (T_concat (T_app h (T_ifDangling (T_post (T_punctOpt (by decide) h'))))))
theorem T_wcpa {a e : St} {i : Nat} {p : Option Punc} {ps qs : List Prog} (h : T a ps .N) (h' : T .N qs e) :
    T a (Prog.withCommentsAndPuncAttached i p ps :: qs) e := by
  refine T_concat ?_
  simp only [List.cons_append, List.nil_append, List.append_assoc]
  exact T_pre (T_ifDangling (T_concat (T_app h (T_punctOpt (by decide) (T_ifDangling (T_post h'))))))
theorem T_bwcp {a b e : St} {n : Loc} {ps qs : List Prog} (hb : b ≠ .bad) (h : T a ps b) (h' : T b qs e) :
    T a (Prog.New.bwcp n ps :: qs) e := by
  refine T_concat ?_
  simp only [List.cons_append, List.nil_append, List.append_assoc]
  exact T_pre (T_ifDangling (T_concat (T_app h (T_ifDangling (T_post (T_punctOpt hb h'))))))
theorem T_bwcpN {a e : St} {n : Loc} {ps qs : List Prog} (h : T a ps .N) (h' : T .N qs e) :
    T a (Prog.New.bwcp n ps :: qs) e := T_bwcp (by decide) h h'
theorem T_bwcpB {a e : St} {n : Loc} {ps qs : List Prog} (h : T a ps .B) (h' : T .B qs e) :
    T a (Prog.New.bwcp n ps :: qs) e := T_bwcp (by decide) h h'
theorem T_bwc {a e : St} {n : Loc} {ps qs : List Prog} (h : T a (ps ++ qs) e) : T a (Prog.New.bwc n ps :: qs) e := by
  refine T_concat ?_
  simp only [List.cons_append, List.nil_append]
  refine T_pre (T_ifDangling (T_concat ?_))
  rw [List.append_assoc]
  unfold T at *
  rw [symss_append] at h ⊢
  rw [List.cons_append, symss, syms]
  exact h
theorem T_paren {a e : St} {ps qs : List Prog} (hk : Kids .N ps) (ha : a ≠ .bad) (h : T .N qs e) :
    T a (Prog.New.parenList ps :: qs) e :=
  T_start (le_L ha) (T_group (by decide) (T_surround hk (by decide) (by decide) (by decide) (by decide) h))
theorem T_declarators {a e : St} {ps qs : List Prog} (hk : Kids .N ps) (ha : a ≠ .bad ∧ a ≠ .M) (h : T a qs e) :
    T a (Prog.New.declaratorsDoc ps :: qs) e := by
  unfold Prog.New.declaratorsDoc
  split
  · exact T_kid (hk _ (by simp)) ha.1 (T_start (St.N_le a) h)
  · exact T_group ha.2 (T_indent (T_inter hk ha (by decide) h))
theorem T_chain {a e : St} {c : Option ChainingContext} {o : Prog} {link qs : List Prog} (ho : Kid .N o) (ha : a ≠ .bad)
    (hl : T .B link .N) (h : T .N qs e) : T a (Prog.New.chainDoc c o link :: qs) e := by
  have hl' : T .N link .N := T_start (by decide) hl
  have key : ∀ {b : Bool}, ∀ {a : St}, a ≠ .bad → T a (([o] ++ (if b then [Prog.maybeline] else []) ++ link) ++ qs) e := by
    intro b a ha
    rw [List.append_assoc, List.append_assoc]
    refine T_kid ho ha ?_
    cases b
    · simpa using T_app hl' h
    · simpa using T_maybe (by decide) (T_app hl h)
  unfold Prog.New.chainDoc
  cases c with
  | none => exact T_concat (T_kid ho ha (T_app hl' h))
  | some c =>
    dsimp only
    split
    · exact T_start (le_L ha) (T_group (by decide) (T_indent (T_concat (key (by decide)))))
    · exact T_concat (key ha)
theorem T_spaced {a e : St} {o : Option Prog} {qs : List Prog} (ho : OptK .N o) (ha : a ≤ .M) (h : T a qs e) :
    T a (Prog.New.spaced o ++ qs) e := by
  cases o with
  | none => exact h
  | some p =>
    refine T_start ha (T_tB (by decide) (T_kid (ho p rfl) (by decide) (T_start (St.N_le a) h)))
theorem T_spacedL {a e : St} {o : Option Prog} (ho : OptK .N o) (ha : a ≤ .M) (h : T a [] e) :
    T a (Prog.New.spaced o) e := by
  rw [← List.append_nil (Prog.New.spaced o)]; exact T_spaced ho ha h
theorem T_annotated {a e : St} {ps : List Prog} {s : Str} (hk : Kids .M ps) (hs : Tight s) (ha : a ≠ .bad) (h : St.N ≤ e) :
    T a (Prog.New.annotatedName ps s) e := by
  unfold Prog.New.annotatedName
  split
  · exact T_val hs ha h
  · rename_i hne
    exact T_interNe hk (by rintro rfl; exact hne rfl) ha (by decide) (T_tB (by decide) (T_val hs (by decide) h))

/-! ### Lists of kids -/

theorem Kids_end {e e' : St} {ps : List Prog} (h : Kids e ps) (h' : e ≤ e') : Kids e' ps := fun p hp => T_end (h p hp) h'
theorem Kids_nil {e : St} : Kids e [] := fun _ h => absurd h (by simp)
theorem Kids_cons {e : St} {p : Prog} {ps : List Prog} (h : Kid e p) (h' : Kids e ps) : Kids e (p :: ps) := by
  intro q hq
  rcases List.mem_cons.1 hq with rfl | hq
  · exact h
  · exact h' q hq
theorem Kids_append {e : St} {ps qs : List Prog} (h : Kids e ps) (h' : Kids e qs) : Kids e (ps ++ qs) := by
  intro q hq
  rcases List.mem_append.1 hq with hq | hq
  · exact h q hq
  · exact h' q hq
theorem Kids_opt {e : St} {o : Option Prog} (h : OptK e o) : Kids e (Prog.opt o) := by
  cases o with
  | none => exact Kids_nil
  | some p => exact Kids_cons (h p rfl) Kids_nil
theorem Kids_ite {e : St} {c : Prop} [Decidable c] {ps qs : List Prog} (h : Kids e ps) (h' : Kids e qs) :
    Kids e (if c then ps else qs) := by split <;> assumption
theorem Kid_le {e e' : St} {p : Prog} (h : Kid e p) (h' : e ≤ e') : Kid e' p := T_end h h'
theorem Kid_of {e : St} {p : Prog} (h : T .L [p] e) : Kid e p := h
theorem Seg_of {ps : List Prog} (h : T .N ps .N) : Seg ps := h
theorem OptK_get {e : St} {p : Prog} (h : OptK e (some p)) : Kid e p := h p rfl
theorem Kid_last {e : St} {ps : List Prog} {p : Prog} (h : Kids e ps) (hp : ps.getLast? = some p) : Kid e p :=
  h p (List.mem_of_getLast? hp)
theorem Kids_head {e : St} {p : Prog} {ps : List Prog} (h : Kids e (p :: ps)) : Kid e p := h p (.head _)
theorem Kids_tail {e : St} {p : Prog} {ps : List Prog} (h : Kids e (p :: ps)) : Kids e ps := fun q hq => h q (.tail _ hq)
theorem Mems_nil {e : St} : Mems e [] := fun _ h => absurd h (by simp)

/-! ### Results -/

theorem P_opt {α : Type} {e : St} {o : Option α} {f : α → R Prog} (h : ∀ x, o = some x → P (f x) (Kid e)) :
    P (optR o f) (OptK e) := by
  refine P_of fun r hr p hp => ?_
  subst hp
  cases o with
  | none => cases hr
  | some x =>
    simp only [optR] at hr
    split at hr
    · rename_i b hb
      cases hr
      exact P_get (h x rfl) hb
    · cases hr

theorem P_optLed {α : Type} {o : Option α} {f : α → R Prog} (h : ∀ x, o = some x → P (f x) Led) : P (optR o f) OptLed := by
  refine P_of fun r hr p hp => ?_
  subst hp
  cases o with
  | none => cases hr
  | some x =>
    simp only [optR] at hr
    split at hr
    · rename_i b hb
      cases hr
      exact P_get (h x rfl) hb
    · cases hr

theorem P_mapLed {α : Type} {f : α → R Prog} : ∀ {xs : List α}, (∀ x ∈ xs, P (f x) Led) → P (mapR f xs) Leds
  | [], _ => by refine P_of fun r hr => ?_; cases hr; intro p hp; cases hp
  | x :: xs, h => by
    refine P_of fun r hr => ?_
    rw [mapR] at hr
    split at hr
    · cases hr
    · rename_i b hb
      split at hr
      · cases hr
      · rename_i bs hbs
        cases hr
        intro p hp
        rcases List.mem_cons.1 hp with rfl | hp
        · exact P_get (h x (by simp)) hb
        · exact P_get (P_mapLed (fun y hy => h y (by simp [hy]))) hbs p hp

theorem P_map {α : Type} {e : St} {f : α → R Prog} : ∀ {xs : List α}, (∀ x ∈ xs, P (f x) (Kid e)) → P (mapR f xs) (Kids e)
  | [], _ => by refine P_of fun r hr => ?_; cases hr; exact Kids_nil
  | x :: xs, h => by
    refine P_of fun r hr => ?_
    rw [mapR] at hr
    split at hr
    · cases hr
    · rename_i b hb
      split at hr
      · cases hr
      · rename_i bs hbs
        cases hr
        exact Kids_cons (P_get (h x (by simp)) hb) (P_get (P_map (fun y hy => h y (by simp [hy]))) hbs)

theorem P_mapM {α : Type} {e : St} {f : α → R (Bool × Prog)} : ∀ {xs : List α}, (∀ x ∈ xs, P (f x) (fun m => Kid e m.2)) →
    P (mapR f xs) (Mems e)
  | [], _ => by refine P_of fun r hr => ?_; cases hr; intro m hm; cases hm
  | x :: xs, h => by
    refine P_of fun r hr => ?_
    rw [mapR] at hr
    split at hr
    · cases hr
    · rename_i b hb
      split at hr
      · cases hr
      · rename_i bs hbs
        cases hr
        intro m hm
        rcases List.mem_cons.1 hm with rfl | hm
        · exact P_get (Q := fun m => Kid e m.2) (h x (by simp)) hb
        · exact P_get (P_mapM (fun y hy => h y (by simp [hy]))) hbs m hm

/-- The state in which the programs of a class end. -/
def endOf : Cls → St
  | .annotation => .M
  | .modifiers => .L
  | _ => .N

/-- The classes whose programs begin with a blank. -/
def ledCls : Cls → Bool
  | .catchClause => true
  | .finallyClause => true
  | .extendsInterface => true
  | .comparison => true
  | _ => false

/-- The classes whose programs may stand at the beginning of a line. -/
def plainly (c : Cls) : Bool := callable c && !ledCls c

/-- A tree with trimmed texts, without empty lists, without `for` statements that have no update and without `USING
LOOKUP` clauses. -/
structure TightTree (root : Node) : Prop where
  text : ∀ l, In root l → Tight l.value
  kind : ∀ l, In root l → Tight l.kind.toList
  full : ∀ l, In root l → fullKinds.contains l.kind = true → l.childrenVec ≠ []
  upd : ∀ l, In root l → l.kind = "for_statement" → l.tryCByN "update" ≠ none
  grp : ∀ l, In root l → l.kind = "group_by_clause" → l.childrenVec.filter (fun c => c.kind != "having_clause") ≠ []
  asg : ∀ l, In root l → l.kind = "variable_declarator" → l.tryCByN "value" ≠ none → l.tryCByK "assignment_operator" ≠ none
  look : ∀ l, In root l → l.kind ≠ "using_lookup_clause" ∧ l.kind ≠ "using_lookup_bind_clause"

/-- The setting: such a tree, and constructors whose programs behave. -/
structure Env (root : Node) (rec : Rec) : Prop extends TightTree root where
  call : ∀ c l, In root l → plainly c = true → P (rec c l) (Kid (endOf c))
  led : ∀ c l, In root l → ledCls c = true → P (rec c l) Led
  args : ∀ l, In root l → P (rec .annotationArgumentList l) (fun p => T .N [p] .N)

section
variable {root : Node} {rec : Rec}

theorem Env.textT (E : Env root rec) (l : Loc) (hl : In root l) : Tight l.value := E.text l hl
theorem Env.kindT (E : Env root rec) (l : Loc) (hl : In root l) : Tight l.kind.toList := E.kind l hl
theorem Env.recP (E : Env root rec) (c : Cls) (l : Loc) (hl : In root l) (hc : plainly c = true) :
    P (rec c l) (Kid (endOf c)) := E.call c l hl hc
theorem InO.get {o : Option Loc} (h : InO root o) {x : Loc} (hx : o = some x) : In root x := by
  unfold InO at h; exact h x hx
theorem InL.get {xs : List Loc} (h : InL root xs) {x : Loc} (hx : x ∈ xs) : In root x := by
  unfold InL at h; exact h x hx
theorem Env.optP (E : Env root rec) {c : Cls} {o : Option Loc} (h : InO root o) (hc : plainly c = true) :
    P (optR o (rec c)) (OptK (endOf c)) := P_opt (fun _ hx => E.call c _ (InO.get h hx) hc)
theorem Env.ledP (E : Env root rec) (c : Cls) (l : Loc) (hl : In root l) (hc : ledCls c = true) : P (rec c l) Led := E.led c l hl hc
theorem Env.optLed (E : Env root rec) {c : Cls} {o : Option Loc} (h : InO root o) (hc : ledCls c = true) :
    P (optR o (rec c)) OptLed := P_optLed (fun _ hx => E.led c _ (InO.get h hx) hc)
theorem Env.mapLed (E : Env root rec) {c : Cls} {xs : List Loc} (h : InL root xs) (hc : ledCls c = true) :
    P (mapR (rec c) xs) Leds := P_mapLed (fun _ hx => E.led c _ (InL.get h hx) hc)
theorem Env.mapP (E : Env root rec) {c : Cls} {xs : List Loc} (h : InL root xs) (hc : plainly c = true) :
    P (mapR (rec c) xs) (Kids (endOf c)) := P_map (fun _ hx => E.call c _ (InL.get h hx) hc)
theorem Env.member (E : Env root rec) {cfg : Cfg} {c : Cls} {l : Loc} (hl : In root l) (hc : plainly c = true) :
    P (Prog.New.bodyMember cfg rec c l) (fun m => Kid (endOf c) m.2) := by
  refine P_of fun m hm => ?_
  unfold Prog.New.bodyMember at hm
  split at hm
  · cases hm
  · rename_i p hp
    split at hm
    · cases hm
    · cases hm; exact P_get (E.call c l hl hc) hp
theorem Env.members (E : Env root rec) {cfg : Cfg} {c : Cls} {xs : List Loc} (h : InL root xs) (hc : plainly c = true) :
    P (mapR (Prog.New.bodyMember cfg rec c) xs) (Mems (endOf c)) := P_mapM (fun _ hx => E.member (InL.get h hx) hc)
theorem Env.dispatch (E : Env root rec) {tbl : List (String × Cls)} {l : Loc} {e : St} (hl : In root l)
    (h : tbl.all (fun x => decide (endOf x.2 ≤ e) && plainly x.2) = true) :
    P (Prog.New.dispatch rec tbl l) (Kid e) := by
  refine P_of fun p hp => ?_
  unfold Prog.New.dispatch at hp
  split at hp
  · rename_i x hx
    have := List.all_eq_true.1 h x (List.mem_of_find?_eq_some hx)
    rw [Bool.and_eq_true, decide_eq_true_eq] at this
    exact Kid_le (P_get (E.call _ _ hl this.2) hp) this.1
  · cases hp
theorem Env.dispatchs (E : Env root rec) {tbl : List (String × Cls)} {xs : List Loc} {e : St} (hl : InL root xs)
    (h : tbl.all (fun x => decide (endOf x.2 ≤ e) && plainly x.2) = true) :
    P (mapR (Prog.New.dispatch rec tbl) xs) (Kids e) := P_map (fun x hx => E.dispatch (InL.get hl hx) h)
theorem Env.cByK (_ : Env root rec) {n : Loc} (hn : In root n) {k : String} : P (n.cByK k) (In root) := P_of fun _ h => in_cByK hn h
theorem Env.cByN (_ : Env root rec) {n : Loc} (hn : In root n) {k : String} : P (n.cByN k) (In root) := P_of fun _ h => in_cByN hn h
theorem Env.firstC (_ : Env root rec) {n : Loc} (hn : In root n) : P n.firstC (In root) := P_of fun _ h => in_firstC hn h
theorem Env.csByK (_ : Env root rec) {n : Loc} (hn : In root n) {k : String} : P (n.csByK k) (fun cs => InL root cs ∧ cs ≠ []) := by
  refine P_of fun _ h => ⟨by unfold InL; exact fun _ hc => in_csByK hn h hc, ?_⟩
  rintro rfl
  unfold Loc.csByK at h
  split at h <;> simp_all
theorem Env.csByN (_ : Env root rec) {n : Loc} (hn : In root n) {k : String} : P (n.csByN k) (fun cs => InL root cs ∧ cs ≠ []) := by
  refine P_of fun _ h => ⟨by unfold InL; exact fun _ hc => in_csByN hn h hc, ?_⟩
  rintro rfl
  unfold Loc.csByN at h
  split at h
  · cases h
  · rename_i hne
    simp only [Except.ok.injEq] at h
    exact hne (by rw [h])
theorem Env.nextNamed (_ : Env root rec) {n : Loc} (hn : In root n) : P n.nextNamed (In root) := P_of fun _ h => in_nextNamed hn h
theorem Env.check (_ : Env root rec) {n : Loc} {k : String} : P (assertCheck n k) (fun _ => n.kind = k) := by
  refine P_of fun _ h => ?_
  unfold assertCheck at h
  split at h
  · rename_i hk; exact eq_of_beq hk
  · cases h
theorem Env.valueN (E : Env root rec) {n : Loc} (hn : In root n) {k : String} : P (n.cvalueByN k) Tight := by
  refine P_of fun s hs => ?_
  unfold Loc.cvalueByN at hs
  split at hs
  · rename_i c hc; cases hs; exact E.text c (in_tryCByN hn hc)
  · cases hs
theorem Env.valueK (E : Env root rec) {n : Loc} (hn : In root n) {k : String} : P (n.cvalueByK k) Tight := by
  refine P_of fun s hs => ?_
  unfold Loc.cvalueByK at hs
  split at hs
  · rename_i c hc; cases hs; exact E.text c (in_tryCByK hn hc)
  · cases hs
theorem Env.keyword (_ : Env root rec) {tbl : List (String × String)} {l : Loc}
    (h : tbl.all (fun x => decide (tx0 .L x.2.toList ≤ .N)) = true) : P (Prog.New.keyword tbl l) (Kid .N) := by
  refine P_of fun p hp => ?_
  unfold Prog.New.keyword at hp
  split at hp
  · rename_i x hx
    have := List.all_eq_true.1 h x (List.mem_of_find?_eq_some hx)
    rw [decide_eq_true_eq] at this
    cases hp
    exact Kid_of (T_tN this (St.le_refl _))
  · cases hp
end

theorem T_sAfter {a e : St} {x : Ins} {o c : String} {so pc : Prog} {ps qs : List Prog} (hk : Kids .N ps)
    (hx : SepOk .N x) (h1 : T0 a [Prog.t o, .indent so] .B ∧ T0 .N [pc, Prog.t c] .N ∧ T0 a [Prog.t o, Prog.t c] .N) (h : T .N qs e) :
    T a (Prog.surround ps x (.sAfter o so) (.before pc c) :: qs) e := T_surround hk hx h1.1 h1.2.1 h1.2.2 h
theorem T_sAfter' {a e : St} {x : Ins} {o c : String} {so : Prog} {ps qs : List Prog} (hk : Kids .N ps)
    (hx : SepOk .N x) (h1 : T0 a [Prog.t o, .indent so] .B ∧ T0 .N [Prog.t c] .N ∧ T0 a [Prog.t o, Prog.t c] .N) (h : T .N qs e) :
    T a (Prog.surround ps x (.sAfter o so) (.s c) :: qs) e := T_surround hk hx h1.1 h1.2.1 h1.2.2 h
theorem T_sPlain {a e : St} {x : Ins} {o c : String} {ps qs : List Prog} (hk : Kids .N ps)
    (hx : SepOk .N x) (h1 : T0 a [Prog.t o] .B ∧ T0 .N [Prog.t c] .N ∧ T0 a [Prog.t o, Prog.t c] .N) (h : T .N qs e) :
    T a (Prog.surround ps x (.s o) (.s c) :: qs) e := T_surround hk hx h1.1 h1.2.1 h1.2.2 h
theorem T_interMap {f : Loc → R Prog} {xs : List Loc} {a e : St} {x : Ins} {ps qs : List Prog}
    (hm : mapR f xs = .ok ps) (hne : xs ≠ []) (hk : Kids .N ps) (ha : a ≠ .bad)
    (hx : SepOk .N x) (h : T .N qs e) : T a (Prog.intersperse ps x :: qs) e :=
  T_interNe hk (mapR_ne hm hne) ha hx h
theorem T_declMap {f : Loc → R Prog} {xs : List Loc} {a e : St} {ps qs : List Prog}
    (hm : mapR f xs = .ok ps) (hne : xs ≠ []) (hk : Kids .N ps) (ha : a ≠ .bad) (h : T .N qs e) :
    T a (Prog.New.declaratorsDoc ps :: qs) e := by
  unfold Prog.New.declaratorsDoc
  split
  · exact T_kid (hk _ (by simp)) ha h
  · exact T_start (le_L ha) (T_group (by decide) (T_indent (T_interNe hk (mapR_ne hm hne) (by decide) (by decide) h)))
theorem T_interVec {root : Node} {rec : Rec} {n : Loc} {k : String} (E : Env root rec) (hn : In root n) {f : Loc → R Prog} {a e : St}
    {x : Ins} {ps qs : List Prog} (hm : mapR f n.childrenVec = .ok ps) (hkd : n.kind = k) (hf : fullKinds.contains k = true) (hk : Kids .N ps)
    (ha : a ≠ .bad) (hx : SepOk .N x) (h : T .N qs e) : T a (Prog.intersperse ps x :: qs) e :=
  T_interNe hk (mapR_ne hm (E.full n hn (hkd ▸ hf))) ha hx h
theorem T_interNeN {a e : St} {x : Ins} {ps qs : List Prog} (hne : ¬ ps.isEmpty = true) (hk : Kids .N ps) (ha : a ≠ .bad)
    (hx : SepOk .N x) (h : T .N qs e) : T a (Prog.intersperse ps x :: qs) e :=
  T_interNe hk (by rintro rfl; exact hne rfl) ha hx h
theorem T_inter1N {a e : St} {x : Ins} {p : Prog} {ps qs : List Prog} (hk : Kids .N (p :: ps)) (ha : a ≠ .bad) (hx : SepOk .N x)
    (h : T .N qs e) : T a (Prog.intersperse (p :: ps) x :: qs) e := T_inter1 hk ha hx h
theorem T_inter2N {a e : St} {x : Ins} {p : Prog} {ps ps' qs : List Prog} (hk : Kids .N ((p :: ps) ++ ps')) (ha : a ≠ .bad)
    (hx : SepOk .N x) (h : T .N qs e) : T a (Prog.intersperse ((p :: ps) ++ ps') x :: qs) e := T_inter1 hk ha hx h
theorem T_interMid {a e : St} {x : Ins} {p : Prog} {ps ps' qs : List Prog} (hk : Kids .N (ps ++ p :: ps')) (ha : a ≠ .bad)
    (hx : SepOk .N x) (h : T .N qs e) : T a (Prog.intersperse (ps ++ p :: ps') x :: qs) e := T_interNe hk (by simp) ha hx h
theorem T_interVec' {n : Loc} {f : Loc → R Prog} {a e : St} {x : Ins} {ps qs : List Prog} (hm : mapR f n.childrenVec = .ok ps)
    (hne : ¬ n.childrenVec.isEmpty = true) (hk : Kids .N ps) (ha : a ≠ .bad) (hx : SepOk .N x) (h : T .N qs e) :
    T a (Prog.intersperse ps x :: qs) e :=
  T_interNe hk (mapR_ne hm (fun h => hne (by rw [h]; rfl))) ha hx h
theorem T_guard {a e : St} {ps : List Prog} (h : T a ps e) : T a ps e := h
theorem T_seg {a e : St} {ps qs : List Prog} (h : Seg ps) (ha : a ≤ .N) (h' : T .N qs e) : T a (ps ++ qs) e :=
  T_start ha (T_app h h')
theorem T_segL {a e : St} {ps : List Prog} (h : Seg ps) (ha : a ≤ .N) (he : St.N ≤ e) : T a ps e := T_start ha (T_end h he)
theorem T_kidN {a e : St} {p : Prog} {qs : List Prog} (hk : Kid .N p) (ha : a ≠ .bad) (h : T .N qs e) : T a (p :: qs) e :=
  T_kid hk ha h
theorem T_kidB {a e : St} {p : Prog} {qs : List Prog} (hk : Kid .B p) (ha : a ≠ .bad) (h : T .B qs e) : T a (p :: qs) e :=
  T_kid hk ha h
theorem T_kidL {a e : St} {p : Prog} {qs : List Prog} (hk : Kid .L p) (ha : a ≠ .bad) (h : T .L qs e) : T a (p :: qs) e :=
  T_kid hk ha h
theorem T_led {a e : St} {p : Prog} {qs : List Prog} (hk : Led p) (ha : a ≤ .N) (h : T .N qs e) : T a (p :: qs) e :=
  T_start ha (T_cons hk h)
theorem T_optLed {a e : St} {o : Option Prog} {qs : List Prog} (hk : OptLed o) (ha : a ≤ .N) (h : T .N qs e) :
    T a (Prog.opt o ++ qs) e := by
  cases o with
  | none => exact T_start ha h
  | some p => exact T_led (hk p rfl) ha h
theorem T_leds {a e : St} {ps qs : List Prog} (hk : Leds ps) (ha : a ≤ .N) (h : T .N qs e) : T a (ps ++ qs) e := by
  induction ps generalizing a with
  | nil => exact T_start ha h
  | cons p ps ih => exact T_led (hk p (by simp)) ha (ih (fun q hq => hk q (by simp [hq])) (by decide))
theorem Led_of {p : Prog} (h : T .N [p] .N) : Led p := h
theorem P_dml {n : Loc} : P (Prog.New.dmlTypeVariant n) (Kid .N) := by
  refine P_of fun p hp => ?_
  unfold Prog.New.dmlTypeVariant at hp
  split at hp
  · rename_i h
    cases hp
    simp only [List.mem_cons, List.not_mem_nil, or_false] at h
    rcases h with h | h | h | h | h | h <;> (rw [h]; exact Kid_of (T_tN (by decide) (St.le_refl _)))
  · cases hp

theorem T_run {a : St} {p : Prog} (h : T a [p] .B) : run a (syms p) ≠ .bad := by
  unfold T at h
  rw [symss, symss, List.append_nil] at h
  intro hb
  rw [hb] at h
  exact absurd h (by decide)

/-! ### Texts made of texts of the tree -/

theorem space_iff (c : Char) : isSpace c = (decide (c.toNat = 32) || decide (c.toNat = 9) || decide (c.toNat = 13)) := by
  have h : ∀ d : Char, (c == d) = decide (c.toNat = d.toNat) := by
    intro d
    rw [Bool.eq_iff_iff]
    simp only [beq_iff_eq, decide_eq_true_eq]
    exact ⟨fun e => by rw [e], Gram.char_ext⟩
  simp only [isSpace, h]; rfl
theorem feed_iff (c : Char) : (c == '\n') = decide (c.toNat = 10) := by
  rw [Bool.eq_iff_iff]
  simp only [beq_iff_eq, decide_eq_true_eq]
  exact ⟨fun e => by rw [e]; rfl, fun h => Gram.char_ext (by rw [h]; rfl)⟩
theorem space_lower (c : Char) : isSpace c.toLower = isSpace c := by
  simp only [space_iff, Gram.toLower_nat]
  split
  · have h1 : ¬ c.toNat + 32 = 32 := by omega
    have h2 : ¬ c.toNat + 32 = 9 := by omega
    have h3 : ¬ c.toNat = 32 := by omega
    have h4 : ¬ c.toNat = 9 := by omega
    have h5 : ¬ c.toNat + 32 = 13 := by omega
    have h6 : ¬ c.toNat = 13 := by omega
    simp only [h1, h2, h3, h4, h5, h6]
  · rfl
theorem space_upper (c : Char) : isSpace c.toUpper = isSpace c := by rw [← space_lower, Gram.lower_upper, space_lower]
theorem feed_lower (c : Char) : (c.toLower == '\n') = (c == '\n') := by
  simp only [feed_iff, Gram.toLower_nat]
  split
  · have h1 : ¬ c.toNat + 32 = 10 := by omega
    have h2 : ¬ c.toNat = 10 := by omega
    simp only [h1, h2]
  · rfl
theorem feed_upper (c : Char) : (c.toUpper == '\n') = (c == '\n') := by rw [← feed_lower, Gram.lower_upper, feed_lower]
theorem inner_map {f : Char → Char} (hs : ∀ c, isSpace (f c) = isSpace c) (hn : ∀ c, (f c == '\n') = (c == '\n')) :
    ∀ s : Str, inner (s.map f) = inner s
  | [] => rfl
  | [c] => rfl
  | c :: d :: s => by
    have := inner_map hs hn (d :: s)
    simp only [List.map_cons, inner, hs, hn] at this ⊢
    rw [this]
theorem blank_iff (c : Char) : (c == ' ') = decide (c.toNat = 32) := by
  rw [Bool.eq_iff_iff]
  simp only [beq_iff_eq, decide_eq_true_eq]
  exact ⟨fun e => by rw [e]; rfl, fun h => Gram.char_ext (by rw [h]; rfl)⟩
theorem blank_lower (c : Char) : (c.toLower == ' ') = (c == ' ') := by
  simp only [blank_iff, Gram.toLower_nat]
  split
  · have h1 : ¬ c.toNat + 32 = 32 := by omega
    have h2 : ¬ c.toNat = 32 := by omega
    simp only [h1, h2]
  · rfl
theorem blank_upper (c : Char) : (c.toUpper == ' ') = (c == ' ') := by rw [← blank_lower, Gram.lower_upper, blank_lower]
theorem Tight_map {f : Char → Char} (hs : ∀ c, isSpace (f c) = isSpace c) (hn : ∀ c, (f c == '\n') = (c == '\n'))
    (hb : ∀ c, (f c == ' ') = (c == ' ')) {s : Str} (h : Tight s) : Tight (s.map f) := by
  obtain ⟨h1, h2, h3, h4, h5⟩ := h
  rw [tidyEnds_eq] at h3
  refine ⟨by simpa using h1, ?_, ?_, Gate.map f s hb hn h4, fun ho => ?_⟩
  · cases s with
    | nil => exact absurd rfl h1
    | cons c s =>
      have := hn c
      simp only [front, List.map_cons, List.head?_cons] at h2 ⊢
      simpa [this] using h2
  · rw [tidyEnds_eq, inner_map hs hn]
    have : ends (s.map f) = ends s := by
      unfold ends
      rw [List.getLast?_map]
      cases s.getLast? with
      | none => rfl
      | some c => exact hs c
    rw [this]; exact h3
  · have h6 := h5 ho
    cases s with
    | nil => exact absurd rfl h1
    | cons c s =>
      have := hb c
      simp only [lead, List.map_cons, List.head?_cons] at h6 ⊢
      simpa [this] using h6
theorem Tight_lower {s : Str} (h : Tight s) : Tight (Prog.New.toLower s) := Tight_map space_lower feed_lower blank_lower h
theorem Tight_upper {s : Str} (h : Tight s) : Tight (Prog.New.toUpper s) := Tight_map space_upper feed_upper blank_upper h
theorem Tight_append {s r : Str} (h : Tight s) (hr : Tight r) : Tight (s ++ r) := by
  obtain ⟨h1, h2, h3, h4, h5⟩ := h
  obtain ⟨g1, g2, g3, g4, g5⟩ := hr
  rw [tidyEnds_eq, Bool.and_eq_true, Bool.not_eq_true'] at h3 g3
  refine ⟨by simp [h1], by rw [front_append h1]; exact h2, ?_, Gate.append _ _ h4 g4 h3.2, fun ho => by rw [lead_append h1]; exact h5 ho⟩
  rw [tidyEnds_eq, inner_append h3.1 g3.1 (fun _ => g2), ends_append g1, g3.2]
  rfl
theorem Tight_const {s : Str} (h : s ≠ [] ∧ front s = true ∧ tidyEnds s = true ∧ pair s = false ∧ lead s = false ∧
    s.contains '\n' = false) : Tight s :=
  ⟨h.1, h.2.1, h.2.2.1, Gate.base _ h.2.2.2.1 h.2.2.2.2.2, fun _ => h.2.2.2.2.1⟩
theorem Tight_quote {s : Str} (h : Tight s) : Tight ('\'' :: (s ++ ['\''])) :=
  Tight_append (s := ['\'']) (Tight_const (by decide)) (Tight_append h (Tight_const (by decide)))
theorem Tight_colon {s r : Str} (h : Tight s) (hr : Tight r) : Tight (s ++ ':' :: r) :=
  Tight_append h (Tight_append (s := [':']) (Tight_const (by decide)) hr)

attribute [irreducible] T Seg Kid Kids OptK Mems SepOk Tight Led Leds OptLed

/-- Hypotheses about kids, up to the end state of their class. -/
macro "wh" : tactic => `(tactic| with_reducible first
  | assumption
  | exact OptK_get ‹_›
  | (refine Kid_last ?_ ?_ <;> assumption))

/-- Texts of the tree. -/
macro "wl" : tactic => `(tactic| with_reducible first
  | assumption
  | (refine Env.textT ‹_› _ ?_; inn)
  | (refine Tight_lower (Env.textT ‹_› _ ?_); inn)
  | (refine Tight_upper (Env.textT ‹_› _ ?_); inn)
  | (refine Tight_quote ?_; assumption)
  | (refine Tight_quote (Env.textT ‹_› _ ?_); inn)
  | (refine Tight_colon (Tight_upper ?_) ?_ <;> assumption))

/-- One step of the machine. -/
syntax "ws" : tactic
/-- Kids of a list. -/
syntax "wk" : tactic

macro_rules
  | `(tactic| wk) => `(tactic| first
    | wh
    | with_reducible exact Kids_nil
    | ((with_reducible refine Kids_cons ?_ ?_) <;> wk)
    | ((with_reducible refine Kids_append ?_ ?_) <;> wk)
    | ((with_reducible refine Kids_opt ?_); wh)
    | ((with_reducible refine Kids_ite ?_ ?_) <;> wk)
    | ((with_reducible refine Kid_of ?_); repeat' ws))

macro_rules
  | `(tactic| ws) => `(tactic| first
    | ((with_reducible refine T_nil ?_); decide)
    | ((with_reducible refine T_kidN ?_ ?_ ?_); (· wh); (· decide))
    | ((with_reducible refine T_kidB ?_ ?_ ?_); (· wh); (· decide))
    | ((with_reducible refine T_kidL ?_ ?_ ?_); (· wh); (· decide))
    | ((with_reducible refine T_led ?_ ?_ ?_); (· wh); (· decide))
    | ((with_reducible refine T_tN ?_ ?_); (· decide))
    | ((with_reducible refine T_tB ?_ ?_); (· decide))
    | ((with_reducible refine T_kindt ?_ ?_ ?_); (· with_reducible exact Env.kindT ‹_› _ ‹_›); (· decide))
    | ((with_reducible refine T_bracketBody ?_ ?_ ?_); (· wh); (· decide))
    | ((with_reducible refine T_declMap (by assumption) (by assumption) ?_ ?_ ?_); (· wh); (· decide))
    | ((with_reducible refine T_declarators ?_ ?_ ?_); (· wh); (· decide))
    | ((with_reducible refine T_chain ?_ ?_ ?_ ?_); (· wh); (· decide))
    | ((with_reducible refine T_wcp ?_ ?_))
    | ((with_reducible refine T_wcpa ?_ ?_))
    | ((with_reducible refine T_spaced ?_ ?_ ?_); (· wh); (· decide))
    | ((with_reducible refine T_spacedL ?_ ?_ ?_); (· wh); (· decide))
    | ((with_reducible refine T_annotated ?_ ?_ ?_ ?_); (· wh); (· wl); (· decide); (· decide))
    | ((with_reducible refine T_tL ?_ ?_); (· decide))
    | ((with_reducible refine T_tR ?_ ?_); (· decide))
    | ((with_reducible refine T_tLR ?_ ?_); (· decide))
    | ((with_reducible refine T_nilp ?_ ?_); (· decide))
    | ((with_reducible refine T_val ?_ ?_ ?_); (· wl); (· decide))
    | ((with_reducible refine T_txtR ?_ ?_ ?_); (· wl); (· decide))
    | ((with_reducible refine T_txtLR ?_ ?_ ?_); (· wl); (· decide))
    | ((with_reducible refine T_nlLast ?_ ?_); (· decide); (· decide))
    | ((with_reducible refine T_nl ?_ ?_); (· decide))
    | ((with_reducible refine T_soft ?_ ?_); (· decide))
    | ((with_reducible refine T_maybe ?_ ?_); (· decide))
    | ((with_reducible refine T_bwc ?_); simp only [List.cons_append, List.nil_append, List.append_assoc])
    | ((with_reducible refine T_bwcpN ?_ ?_); (· (repeat' ws); done))
    | ((with_reducible refine T_bwcpB ?_ ?_); (· (repeat' ws); done))
    | ((with_reducible refine T_bwcpN ?_ ?_))
    | ((with_reducible refine T_paren ?_ ?_ ?_); (· wk); (· decide))
    | ((with_reducible refine T_inter1N ?_ ?_ ?_ ?_); (· wk); (· decide); (· decide))
    | ((with_reducible refine T_inter2N ?_ ?_ ?_ ?_); (· wk); (· decide); (· decide))
    | ((with_reducible refine T_interMap (by assumption) (by assumption) ?_ ?_ ?_ ?_); (· wk); (· decide); (· decide))
    | ((with_reducible refine T_interVec ‹_› ‹_› (by assumption) (by assumption) ?_ ?_ ?_ ?_ ?_); (· decide); (· wk); (· decide); (· decide))
    | ((with_reducible refine T_interNeN ‹_› ?_ ?_ ?_ ?_); (· wk); (· decide); (· decide))
    | ((with_reducible refine T_interMid ?_ ?_ ?_ ?_); (· wk); (· decide); (· decide))
    | ((with_reducible refine T_interVec' (by assumption) ‹_› ?_ ?_ ?_ ?_); (· wk); (· decide); (· decide))
    | ((with_reducible refine T_inter ?_ ?_ ?_ ?_); (· wk); (· decide); (· decide))
    | ((with_reducible refine T_sAfter ?_ ?_ ?_ ?_); (· wk); (· decide); (· decide))
    | ((with_reducible refine T_sAfter' ?_ ?_ ?_ ?_); (· wk); (· decide); (· decide))
    | ((with_reducible refine T_sPlain ?_ ?_ ?_ ?_); (· wk); (· decide); (· decide))
    | ((with_reducible refine T_surroundBody ?_ ?_ ?_); (· wh); (· decide))
    | ((with_reducible refine T_interBody ?_ ?_ ?_); (· wh); (· decide))
    | ((with_reducible refine T_concat_last ?_))
    | ((with_reducible refine T_concat ?_); simp only [List.cons_append, List.nil_append, List.append_assoc])
    | ((with_reducible refine T_group ?_ ?_); (· decide))
    | (with_reducible refine T_indent ?_)
    | (with_reducible refine T_dedent ?_)
    | (with_reducible refine T_force ?_)
    | (with_reducible refine T_pre ?_)
    | (with_reducible refine T_post ?_)
    | (with_reducible refine T_ifDangling ?_)
    | (with_reducible refine T_rootDangling ?_)
    | ((with_reducible refine T_optN ?_ ?_ ?_); (· wh); (· decide))
    | ((with_reducible refine T_optLed ?_ ?_ ?_); (· wh); (· decide))
    | ((with_reducible refine T_optL ?_))
    | ((with_reducible refine T_optB ?_ ?_ ?_); (· wh); (· decide))
    | ((with_reducible refine T_kidsN ?_ ?_ ?_); (· wh); (· decide))
    | ((with_reducible refine T_kidsB ?_ ?_ ?_); (· wh); (· decide))
    | ((with_reducible refine T_leds ?_ ?_ ?_); (· wh); (· decide))
    | ((with_reducible refine T_iteL ?_ ?_))
    | ((with_reducible refine T_ite ?_ ?_) <;> simp only [List.cons_append, List.nil_append, List.append_assoc])
    | ((with_reducible refine T_ite1 ?_ ?_) <;> simp only [List.cons_append, List.nil_append, List.append_assoc])
    | ((with_reducible refine T_seg ?_ ?_ ?_); (· assumption); (· decide))
    | ((with_reducible refine T_segL ?_ ?_ ?_); (· assumption); (· decide); (· decide))
    | ((with_reducible refine T_guard ?_); split)
    | (simp only [List.cons_append, List.nil_append, List.append_nil, List.append_assoc]))

/-- Binds of a constructor. -/
macro "wb" E:ident hn:ident : tactic => `(tactic| first
  | ((with_reducible refine P_bind (Env.recP $E _ _ ?_ ?_) (fun _ _ _ => ?_)); (· inn); (· rfl))
  | ((with_reducible refine P_bind (Env.optP $E ?_ ?_) (fun _ _ _ => ?_)); (· ino); (· rfl))
  | ((with_reducible refine P_bind (Env.ledP $E _ _ ?_ ?_) (fun _ _ _ => ?_)); (· inn); (· rfl))
  | ((with_reducible refine P_bind (Env.optLed $E ?_ ?_) (fun _ _ _ => ?_)); (· ino); (· rfl))
  | ((with_reducible refine P_bind (Env.mapLed $E ?_ ?_) (fun _ _ _ => ?_)); (· inls); (· rfl))
  | ((with_reducible refine P_bind (Env.members $E ?_ ?_) (fun _ _ _ => ?_)); (· inls); (· rfl))
  | ((with_reducible refine P_bind (Env.mapP $E ?_ ?_) (fun _ _ _ => ?_)); (· inls); (· rfl))
  | ((with_reducible refine P_bind (Env.dispatchs $E (e := .N) ?_ ?_) (fun _ _ _ => ?_)); (· inls); (· decide))
  | ((with_reducible refine P_bind (Env.member $E ?_ ?_) (fun _ _ _ => ?_)); (· inn); (· rfl))
  | with_reducible refine P_bind (Env.check $E) (fun _ _ _ => ?_)
  | ((with_reducible refine P_bind (Env.valueN $E ?_) (fun _ _ _ => ?_)); (· inn))
  | ((with_reducible refine P_bind (Env.valueK $E ?_) (fun _ _ _ => ?_)); (· inn))
  | ((with_reducible refine P_bind (Env.cByK $E ?_) (fun _ _ _ => ?_)); (· inn))
  | ((with_reducible refine P_bind (Env.cByN $E ?_) (fun _ _ _ => ?_)); (· inn))
  | ((with_reducible refine P_bind (Env.firstC $E ?_) (fun _ _ _ => ?_)); (· inn))
  | ((with_reducible refine P_bind (Env.csByK $E ?_) (fun _ _ ⟨_, _⟩ => ?_)); (· inn))
  | ((with_reducible refine P_bind (Env.csByN $E ?_) (fun _ _ ⟨_, _⟩ => ?_)); (· inn))
  | ((with_reducible refine P_bind (Env.nextNamed $E ?_) (fun _ _ _ => ?_)); (· inn))
  | with_reducible exact P_err
  | ((with_reducible refine P_mono (Env.recP $E _ _ ?_ ?_) (fun _ h => Kid_le h ?_)); (· inn); (· rfl); (· decide))
  | ((with_reducible refine P_mono (Env.dispatch $E (e := .N) ?_ ?_) (fun _ h => Kid_le h ?_)); (· inn); (· decide); (· decide))
  | ((with_reducible refine P_mono (Env.keyword $E ?_) (fun _ h => Kid_le h ?_)); (· decide); (· decide))
  | with_reducible refine P_bind (Q := Kid .N) ?_ (fun _ _ _ => ?_)
  | with_reducible refine P_bind (Q := Seg) ?_ (fun _ _ _ => ?_)
  | with_reducible refine P_bind (Q := fun _ => True) P_any (fun _ _ _ => ?_)
  | ((with_reducible refine P_ok (Kid_of ?_)))
  | ((with_reducible refine P_ok (Seg_of ?_)))
  | ((with_reducible refine P_ok (Led_of ?_)))
  | ((with_reducible refine P_pure (Kid_of ?_)))
  | ((with_reducible refine P_guard ?_); split))

/-- A constructor whose programs always print something. -/
macro "wt" E:ident hn:ident : tactic => `(tactic| (
  repeat' wb $E $hn
  all_goals try simp only [endOf, Prog.groupConcat, Prog.groupIndent, Prog.groupIndentConcat, Prog.groupSurround] at *
  all_goals try simp only [List.cons_append, List.nil_append, List.append_assoc]
  all_goals try repeat' ws))

end Afmt.Trail
