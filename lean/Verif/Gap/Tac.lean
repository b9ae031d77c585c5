import Verif.Gap.Mach
import Verif.Lines.Tac

/-!
# Blanks around operators and brackets: rules for the machine
-/

namespace Afmt.Gap
open Afmt.Prog (Ins)
open Afmt.Lines (P P_bind P_ok P_pure P_err P_any P_mono P_get P_of P_guard InL InO InL_vec InL_named InL_try InL_filter
  InL_drop InL_tail InL_head InL_last InO_K InO_N InO_first mapR_ne fullKinds callable)

/-- Whether a single `=` without white space on both sides is allowed. -/
class Mode where
  tight : Bool

/-- A set of states of the reader. -/
structure St where
  mem : Sc → Bool

/-- All states. -/
def allSc : List Sc :=
  [.N, .W, .L, .O, .P false, .P true, .E false, .E true, .S, .Q false, .Q true, .D false, .D true, .I, .J]

theorem mem_all (x : Sc) : x ∈ allSc := by
  cases x with
  | P w | E w | Q w | D w => cases w <;> decide
  | _ => decide

/-- Inclusion of sets. -/
def St.sub (a b : St) : Bool := allSc.all (fun x => !a.mem x || b.mem x)
instance : LE St := ⟨fun a b => a.sub b = true⟩
instance (a b : St) : Decidable (a ≤ b) := inferInstanceAs (Decidable (a.sub b = true))

theorem St.le_iff {a b : St} : a ≤ b ↔ ∀ x, a.mem x = true → b.mem x = true := by
  show a.sub b = true ↔ _
  unfold St.sub
  rw [List.all_eq_true]
  constructor
  · intro h x hx
    have := h x (mem_all x)
    rw [hx] at this
    exact this
  · intro h x _
    cases hx : a.mem x with
    | false => rfl
    | true => rw [h x hx]; rfl
theorem St.le_refl (a : St) : a ≤ a := St.le_iff.2 (fun _ h => h)
theorem St.le_trans {a b c : St} (h : a ≤ b) (h' : b ≤ c) : a ≤ c := St.le_iff.2 (fun x hx => St.le_iff.1 h' x (St.le_iff.1 h x hx))

/-- Union of sets. -/
def St.or (a b : St) : St := ⟨fun x => a.mem x || b.mem x⟩
theorem St.le_or_left (a b : St) : a ≤ a.or b := St.le_iff.2 (fun x h => by simp [St.or, h])
theorem St.le_or_right (a b : St) : b ≤ a.or b := St.le_iff.2 (fun x h => by simp [St.or, h])
theorem St.or_le {a b c : St} (h : a ≤ c) (h' : b ≤ c) : a.or b ≤ c := by
  refine St.le_iff.2 (fun x hx => ?_)
  simp only [St.or, Bool.or_eq_true] at hx
  exact hx.elim (St.le_iff.1 h x) (St.le_iff.1 h' x)

/-- After a character without restrictions. -/
def St.N : St := ⟨fun x => x == .N⟩
/-- Where programs end. -/
def St.E : St := ⟨fun | .N | .P _ => true | _ => false⟩
/-- After white space. -/
def St.W : St := ⟨fun | .W | .L => true | _ => false⟩
/-- At the start of a line. -/
def St.L : St := ⟨fun x => x == .L⟩
/-- After an opening bracket. -/
def St.O : St := ⟨fun x => x == .O⟩
/-- Where programs may start. -/
def St.X : St := ⟨fun | .N | .W | .L | .O | .P _ | .D _ => true | _ => false⟩
/-- Where a blank or a line break may follow. -/
def St.R : St := ⟨fun | .N | .W | .P _ | .E true | .S | .Q true | .D true => true | _ => false⟩
/-- Where a line break may follow. -/
def St.F : St := ⟨fun x => !x.inside && x.open_⟩
/-- Where punctuation may follow. -/
def St.C : St := ⟨fun | .N | .O | .P _ | .D _ => true | _ => false⟩
/-- Outside of string literals. -/
def St.code : St := ⟨Gap.code⟩
/-- After a single `=` without white space before it. -/
def St.T : St := ⟨fun x => x == .E false⟩

variable [Mode]

/-- Reading the programs from a state in `a` ends in `e`, however the printer breaks the lines. -/
def T (a : St) (ps : List Prog) (e : St) : Prop := ∀ x, a.mem x = true → wp Mode.tight (gss ps) e.mem x = true

/-- The same if a tight `=` is not allowed. -/
def t0 (a : St) (xs : List Sym) (e : St) : Bool := allSc.all (fun x => !a.mem x || wp false xs e.mem x)
def T0 (a : St) (ps : List Prog) (e : St) : Prop := t0 a (gss ps) e = true

instance (a : St) (ps : List Prog) (e : St) : Decidable (T0 a ps e) := inferInstanceAs (Decidable (t0 a (gss ps) e = true))

omit [Mode] in
theorem t0_get {a e : St} {xs : List Sym} (h : t0 a xs e = true) {x : Sc} (hx : a.mem x = true) : wp false xs e.mem x = true := by
  have := List.all_eq_true.1 h x (mem_all x)
  rw [hx] at this
  exact this
theorem T_of0 {a e : St} {ps : List Prog} (h : T0 a ps e) : T a ps e := fun _ hx => wp_le (t0_get h hx)

/-- A text is read from `a` to `e`. -/
def Goes (a : St) (s : Str) (e : St) : Prop := ∀ x, a.mem x = true → ∃ y, scan Mode.tight x s = some y ∧ e.mem y = true
/-- The same if a tight `=` is not allowed. -/
def goes0 (a : St) (s : Str) (e : St) : Bool := allSc.all (fun x => !a.mem x || (scan false x s).any e.mem)

theorem Goes_of0 {a e : St} {s : Str} (h : goes0 a s e = true) : Goes a s e := by
  intro x hx
  have := List.all_eq_true.1 h x (mem_all x)
  rw [hx] at this
  obtain ⟨y, h1, h2⟩ := any_get (o := scan false x s) (p := e.mem) this
  refine ⟨y, ?_, h2⟩
  cases hm : (Mode.tight : Bool) with
  | false => exact h1
  | true => exact scan_mono h1
theorem Goes.le {a a' e e' : St} {s : Str} (h : Goes a s e) (ha : a' ≤ a) (he : e ≤ e') : Goes a' s e' := by
  intro x hx
  obtain ⟨y, h1, h2⟩ := h x (St.le_iff.1 ha x hx)
  exact ⟨y, h1, St.le_iff.1 he y h2⟩
theorem Goes.append {a b e : St} {s r : Str} (h : Goes a s b) (h' : Goes b r e) : Goes a (s ++ r) e := by
  intro x hx
  obtain ⟨y, h1, h2⟩ := h x hx
  obtain ⟨z, h3, h4⟩ := h' y h2
  exact ⟨z, by rw [scan_append, h1]; exact h3, h4⟩

theorem Goes_nil {a e : St} (h : a ≤ e) : Goes a [] e := fun x hx => ⟨x, rfl, St.le_iff.1 h x hx⟩

/-- From every state the program ends in `e`. -/
def Kid (e : St) (p : Prog) : Prop := T .X [p] e
/-- `Kid` for all programs. -/
def Kids (e : St) (ps : List Prog) : Prop := ∀ p ∈ ps, Kid e p
/-- `Kid` for the program, if any. -/
def OptK (e : St) (o : Option Prog) : Prop := ∀ p, o = some p → Kid e p
/-- `Kid` for all members. -/
def Mems (e : St) (ms : List (Bool × Prog)) : Prop := ∀ m ∈ ms, Kid e m.2
/-- A list of programs that may follow a program. -/
def Seg (ps : List Prog) : Prop := T .E ps .E
/-- A program that may follow a program. -/
def Led (p : Prog) : Prop := T .E [p] .E
/-- `Led` for all programs. -/
def Leds (ps : List Prog) : Prop := ∀ p ∈ ps, Led p
/-- `Led` for the program, if any. -/
def OptLed (o : Option Prog) : Prop := ∀ p, o = some p → Led p
/-- The program of an operator: from white space to where white space may follow. -/
def Infix (p : Prog) : Prop := T .W [p] .R
/-- A text that may be printed as a word. -/
def Wordy (s : Str) : Prop := Goes .X s .E
/-- A text that may be printed as an operator. -/
def Oper (s : Str) : Prop := Goes .W s .R
/-- A text that may be printed between quotes. -/
def Quotable (s : Str) : Prop := scan Mode.tight .I s = some .I

theorem T_nil {a e : St} (h : a ≤ e) : T a [] e := St.le_iff.1 h
theorem T_app {a b e : St} {ps qs : List Prog} (h : T a ps b) (h' : T b qs e) : T a (ps ++ qs) e := by
  intro x hx
  rw [gss_append, wp_append]
  exact wp_mono h' x (h x hx)
theorem T_cons {a b e : St} {p : Prog} {qs : List Prog} (h : T a [p] b) (h' : T b qs e) : T a (p :: qs) e :=
  T_app (ps := [p]) h h'
theorem T_start {a a' e : St} {ps : List Prog} (h : a ≤ a') (h' : T a' ps e) : T a ps e := fun x hx => h' x (St.le_iff.1 h x hx)
theorem T_end {a e e' : St} {ps : List Prog} (h : T a ps e) (h' : e ≤ e') : T a ps e' := fun x hx => wp_mono (St.le_iff.1 h') x (h x hx)

theorem T_eq {a e : St} {ps qs : List Prog} (h : gss qs = gss ps) (h' : T a ps e) : T a qs e := by
  intro x hx; rw [h]; exact h' x hx
theorem T_concat {a e : St} {ps qs : List Prog} (h : T a (ps ++ qs) e) : T a (.concat ps :: qs) e :=
  T_eq (by rw [gss, gs, gss_append]) h
theorem T_concat_last {a e : St} {ps : List Prog} (h : T a ps e) : T a [.concat ps] e := T_concat (by rwa [List.append_nil])
theorem T_group {a e : St} {p : Prog} {qs : List Prog} (h : T a (p :: qs) e) : T a (.group p :: qs) e := by
  intro x hx
  rw [gss, gs, List.cons_append, wp]
  have := h x hx
  rwa [gss] at this
theorem T_indent {a e : St} {p : Prog} {qs : List Prog} (h : T a (p :: qs) e) : T a (.indent p :: qs) e := T_eq (by simp only [gss, gs]) h
theorem T_dedent {a e : St} {p : Prog} {qs : List Prog} (h : T a (p :: qs) e) : T a (.dedent p :: qs) e := T_eq (by simp only [gss, gs]) h
theorem T_ifDangling {a e : St} {i : Nat} {p q : Prog} {qs : List Prog} (h : T a (q :: qs) e) :
    T a (.ifDangling i p q :: qs) e := T_eq (by simp only [gss, gs]) h
theorem T_pre {a e : St} {i : Nat} {qs : List Prog} (h : T a qs e) : T a (.pre i :: qs) e := T_eq (by simp only [gss, gs, List.nil_append]) h
theorem T_post {a e : St} {i : Nat} {qs : List Prog} (h : T a qs e) : T a (.post i :: qs) e := T_eq (by simp only [gss, gs, List.nil_append]) h
theorem T_rootDangling {a e : St} {i : Nat} {qs : List Prog} (h : T a qs e) : T a (.rootDangling i :: qs) e := T_eq (by simp only [gss, gs, List.nil_append]) h
theorem T_dangling {a e : St} {i : Nat} {qs : List Prog} (h : T a qs e) : T a (.dangling i :: qs) e := T_eq (by simp only [gss, gs, List.nil_append]) h
theorem T_force {a e : St} {qs : List Prog} (h : T a qs e) : T a (.forceBreak :: qs) e := T_eq (by simp only [gss, gs, List.nil_append]) h
theorem T_fail {a e : St} {x : Panic} {qs : List Prog} (h : T a qs e) : T a (.fail x :: qs) e := T_eq (by simp only [gss, gs, List.nil_append]) h

omit [Mode] in
theorem step_F {t : Bool} {x : Sc} (h : St.F.mem x = true) : x.inside = false ∧ step t x '\n' = some .L := by
  cases x with
  | E w | Q w | D w => cases w <;> first | exact ⟨rfl, rfl⟩ | cases h
  | _ => first | exact ⟨rfl, rfl⟩ | cases h
omit [Mode] in
theorem step_R {t : Bool} {x : Sc} (h : St.R.mem x = true) : x.inside = false ∧ x ≠ .L ∧ step t x ' ' = some .W ∧ step t x '\n' = some .L := by
  cases x with
  | E w | Q w | D w => cases w <;> first | exact ⟨rfl, nofun, rfl, rfl⟩ | cases h
  | _ => first | exact ⟨rfl, nofun, rfl, rfl⟩ | cases h
theorem T_nl {a e : St} {qs : List Prog} (ha : a ≤ .F) (h : T .L qs e) : T a (.nl :: qs) e := by
  intro x hx
  obtain ⟨h1, h2⟩ := step_F (t := Mode.tight) (St.le_iff.1 ha x hx)
  rw [gss, gs, List.singleton_append, wp, h1, h2]
  exact h .L rfl
theorem T_sep {a e : St} {b : Bool} {qs : List Prog} (ha : a ≤ .F) (h : T .L qs e) : T a (.sep b :: qs) e := by
  intro x hx
  obtain ⟨h1, h2⟩ := step_F (t := Mode.tight) (St.le_iff.1 ha x hx)
  rw [gss, gs, List.singleton_append, wp, h1, h2]
  exact h .L rfl
theorem T_soft {a e : St} {qs : List Prog} (ha : a ≤ .R) (h : T .W qs e) : T a (.softline :: qs) e := by
  intro x hx
  obtain ⟨h1, h2, h3, h4⟩ := step_R (t := Mode.tight) (St.le_iff.1 ha x hx)
  rw [gss, gs, List.singleton_append, wp, h1, h3, h4]
  have g1 : wp Mode.tight (gss qs) e.mem .W = true := h .W rfl
  have g2 : wp Mode.tight (gss qs) e.mem .L = true := h .L rfl
  simp [g1, g2, h2]
theorem T_maybe {a e : St} {qs : List Prog} (ha : a ≤ .F) (h : T (a.or .L) qs e) : T a (.maybeline :: qs) e := by
  intro x hx
  obtain ⟨h1, h2⟩ := step_F (t := Mode.tight) (St.le_iff.1 ha x hx)
  rw [gss, gs, List.singleton_append, wp, h1, h2]
  have g1 : wp Mode.tight (gss qs) e.mem x = true := h x (by simp [St.or, hx])
  have g2 : wp Mode.tight (gss qs) e.mem .L = true := h .L (by simp [St.or, St.L])
  simp [g1, g2]

/-- A text. -/
theorem T_txt {a b e : St} {s : Str} {qs : List Prog} (ha : a ≤ .code) (h : Goes a s b) (h' : T b qs e) : T a (.txt s :: qs) e := by
  intro x hx
  obtain ⟨y, h1, h2⟩ := h x hx
  have h3 : x.inside = false := by simpa [St.code, code] using St.le_iff.1 ha x hx
  rw [gss, gs, List.singleton_append, wp, h1, h3]
  exact h' y h2

omit [Mode] in
theorem le_code {a : St} (h : a ≤ .X) : a ≤ .code := St.le_trans h (by decide)

theorem T_punct {a e : St} {p : Punc} {qs : List Prog} (ha : a ≤ .C) (h : T .N qs e) : T a (.punct p :: qs) e := by
  have h1 : Goes a p.text .N := by
    refine Goes.le (a := .C) ?_ ha (St.le_refl _)
    unfold Punc.text
    split <;> exact Goes_of0 (by decide)
  exact T_eq (ps := .txt p.text :: qs) (by simp only [gss, gs]) (T_txt (St.le_trans ha (by decide)) h1 h)

theorem T_punctOpt {e : St} {o : Option Punc} {qs : List Prog} (h : T .E qs e) : T .E (Prog.punctOpt o ++ qs) e := by
  cases o with
  | none => exact h
  | some p => exact T_punct (by decide) (T_start (by decide) h)

theorem T_kid {a b e : St} {p : Prog} {qs : List Prog} (hk : Kid b p) (ha : a ≤ .X) (h : T b qs e) : T a (p :: qs) e :=
  T_cons (T_start ha hk) h

theorem T_optN {a e : St} {o : Option Prog} {qs : List Prog} (hk : OptK .E o) (ha : a ≤ .X) (h : T (a.or .E) qs e) :
    T a (Prog.opt o ++ qs) e := by
  cases o with
  | none => exact T_start (St.le_or_left _ _) h
  | some p => exact T_kid (hk p rfl) ha (T_start (St.le_or_right _ _) h)
theorem T_optB {a e : St} {o : Option Prog} {qs : List Prog} (hk : OptK .X o) (ha : a ≤ .X) (h : T .X qs e) :
    T a (Prog.opt o ++ qs) e := by
  cases o with
  | none => exact T_start ha h
  | some p => exact T_kid (hk p rfl) ha h
theorem T_optL {a e : St} {o : Option Prog} (h : T a (Prog.opt o ++ []) e) : T a (Prog.opt o) e := by
  rwa [List.append_nil] at h

/-- Kids one after the other. -/
theorem T_kidsN {a e : St} {ps qs : List Prog} (hk : Kids .E ps) (ha : a ≤ .X) (h : T (a.or .E) qs e) : T a (ps ++ qs) e := by
  have key : ∀ {ps : List Prog}, Kids .E ps → T .E qs e → T .E (ps ++ qs) e := by
    intro ps hk h
    induction ps with
    | nil => exact h
    | cons p ps ih => exact T_kid (hk p (by simp)) (by decide) (ih (fun q hq => hk q (by simp [hq])))
  cases ps with
  | nil => exact T_start (St.le_or_left _ _) h
  | cons p ps =>
    exact T_kid (hk p (by simp)) ha (key (fun q hq => hk q (by simp [hq])) (T_start (St.le_or_right _ _) h))
theorem T_kidsB {a e : St} {ps qs : List Prog} (hk : Kids .W ps) (ha : a ≤ .X) (h : T .X qs e) : T a (ps ++ qs) e := by
  induction ps generalizing a with
  | nil => exact T_start ha h
  | cons p ps ih => exact T_kid (hk p (by simp)) ha (ih (fun q hq => hk q (by simp [hq])) (by decide))

theorem T_ite {a e : St} {c : Prop} [Decidable c] {ps ps' qs : List Prog} (h : T a (ps ++ qs) e) (h' : T a (ps' ++ qs) e) :
    T a ((if c then ps else ps') ++ qs) e := by split <;> assumption
theorem T_ite1 {a e : St} {c : Prop} [Decidable c] {p p' : Prog} {qs : List Prog} (h : T a (p :: qs) e) (h' : T a (p' :: qs) e) :
    T a ((if c then p else p') :: qs) e := by split <;> assumption
theorem T_iteL {a e : St} {c : Prop} [Decidable c] {ps ps' : List Prog} (h : T a ps e) (h' : T a ps' e) :
    T a (if c then ps else ps') e := by split <;> assumption

/-! ### Lists -/

/-- The separator may stand between programs that end in `b`. -/
def SepOk (b : St) (x : Ins) : Prop := T0 b x.progs .X
instance (b : St) (x : Ins) : Decidable (SepOk b x) := inferInstanceAs (Decidable (T0 b x.progs .X))

theorem T_interParts {b : St} {x : Ins} (hx : SepOk b x) : ∀ {ps : List Prog} {a : St}, a ≤ .X → Kids b ps → ps ≠ [] →
    T a (Prog.intersperseParts x ps) b
  | [], a, _, _, h => absurd rfl h
  | [p], a, ha, hk, _ => by
    rw [Prog.intersperseParts]
    exact T_kid (hk p (by simp)) ha (T_nil (St.le_refl _))
  | p :: q :: ps, a, ha, hk, _ => by
    rw [Prog.intersperseParts]
    · refine T_kid (hk p (by simp)) ha (T_app (T_of0 hx) ?_)
      exact T_interParts hx (by decide) (fun r hr => hk r (by simp [List.mem_cons.1 hr])) (by simp)
    · simp

theorem T_inter {a e : St} {x : Ins} {ps qs : List Prog} (hk : Kids .E ps) (ha : a ≤ .X) (hx : SepOk .E x)
    (h : T (a.or .E) qs e) : T a (Prog.intersperse ps x :: qs) e := by
  cases ps with
  | nil => exact T_txt (le_code ha) (Goes_nil (St.le_or_left _ _)) h
  | cons p ps => exact T_concat (T_app (T_interParts hx ha hk (by simp)) (T_start (St.le_or_right _ _) h))
theorem T_inter1 {a b e : St} {x : Ins} {p : Prog} {ps qs : List Prog} (hk : Kids b (p :: ps)) (ha : a ≤ .X) (hx : SepOk b x)
    (h : T b qs e) : T a (Prog.intersperse (p :: ps) x :: qs) e :=
  T_concat (T_app (T_interParts hx ha hk (by simp)) h)
theorem T_interNe {a b e : St} {x : Ins} {ps qs : List Prog} (hk : Kids b ps) (hne : ps ≠ []) (ha : a ≤ .X) (hx : SepOk b x)
    (h : T b qs e) : T a (Prog.intersperse ps x :: qs) e := by
  cases ps with
  | nil => exact absurd rfl hne
  | cons p ps => exact T_inter1 hk ha hx h

/-- `surround` with opening and closing texts. -/
theorem T_surround {a e : St} {x : Ins} {o c : Str} {so pc : Option Prog} {ps qs : List Prog} (hk : Kids .E ps)
    (hx : SepOk .E x) (h1 : T0 a (.txt o :: (Prog.opt so).map .indent) .X) (h2 : T0 .E (Prog.opt pc ++ [.txt c]) .E)
    (h0 : T0 a [.txt o, .txt c] .E) (h : T .E qs e) :
    T a (Prog.surround ps x ⟨none, some o, so⟩ ⟨pc, some c, none⟩ :: qs) e := by
  cases ps with
  | nil =>
    rw [Prog.surround]
    exact T_concat (T_app (T_of0 h0) h)
  | cons p ps =>
    rw [Prog.surround]
    · refine T_concat ?_
      simp only [Prog.opt, Prog.optT, List.nil_append, List.append_nil, List.append_assoc]
      rw [← List.append_assoc]
      refine T_app (T_of0 h1) (T_indent (T_inter1 hk (by decide) hx ?_))
      have := T_app (T_of0 h2) h
      rwa [List.append_assoc] at this
    · simp

/-! ### Bodies -/

theorem T_bodyParts : ∀ {ms : List (Bool × Prog)} {a : St}, a ≤ .X → Mems .E ms → ms ≠ [] → T a (Prog.bodyParts ms) .E
  | [], a, _, _, h => absurd rfl h
  | [(t, p)], a, ha, hk, _ => by
    rw [Prog.bodyParts]
    exact T_kid (hk (t, p) (by simp)) ha (T_nil (St.le_refl _))
  | (tr, p) :: q :: ms, a, ha, hk, _ => by
    rw [Prog.bodyParts]
    · refine T_kid (hk (tr, p) (by simp)) ha (T_sep (by decide) ?_)
      exact T_bodyParts (by decide) (fun r hr => hk r (by simp [List.mem_cons.1 hr])) (by simp)
    · simp

theorem T_interBody {a e : St} {ms : List (Bool × Prog)} {qs : List Prog} (hk : Mems .E ms) (ha : a ≤ .X)
    (h : T (a.or .E) qs e) : T a (Prog.intersperseBody ms :: qs) e := by
  cases ms with
  | nil => exact T_txt (le_code ha) (Goes_nil (St.le_or_left _ _)) h
  | cons m ms => exact T_concat (T_app (T_bodyParts ha hk (by simp)) (T_start (St.le_or_right _ _) h))
theorem T_interBodyNe {a e : St} {ms : List (Bool × Prog)} {qs : List Prog} (hk : Mems .E ms) (hne : ms ≠ []) (ha : a ≤ .X)
    (h : T .E qs e) : T a (Prog.intersperseBody ms :: qs) e := by
  cases ms with
  | nil => exact absurd rfl hne
  | cons m ms => exact T_concat (T_app (T_bodyParts ha hk (by simp)) h)

theorem T_surroundBody {a e : St} {ms : List (Bool × Prog)} {qs : List Prog} (hk : Mems .E ms) (ha : a ≤ .X)
    (h : T .E qs e) : T a (Prog.surroundBody ms :: qs) e := by
  refine T_start (ha) ?_
  cases ms with
  | nil =>
    exact T_concat (T_txt (b := .E) (by decide) (Goes_of0 (by decide)) (T_nl (by decide) (T_txt (b := .E) (by decide) (Goes_of0 (by decide)) h)))
  | cons m ms =>
    rw [Prog.surroundBody]
    · refine T_concat (T_txt (b := .E) (by decide) (Goes_of0 (by decide)) (T_indent (T_nl (by decide) (T_indent (T_interBodyNe hk (by simp) (by decide) ?_)))))
      exact T_nl (by decide) (T_txt (b := .E) (by decide) (Goes_of0 (by decide)) h)
    · simp

theorem T_bracketBody {a e : St} {n : Loc} {ms : List (Bool × Prog)} {qs : List Prog} (hk : Mems .E ms) (ha : a ≤ .X)
    (h : T .E qs e) : T a (Prog.New.bracketBody n ms :: qs) e :=
  T_concat (T_pre (T_ifDangling (T_concat (T_surroundBody hk ha (T_post h)))))

/-! ### Texts -/

theorem Goes_blank {a : St} {s : Str} (h : Wordy s) (ha : a ≤ .X) : Goes a (s ++ [' ']) .W :=
  Goes.append (Goes.le h ha (St.le_refl _)) (Goes_of0 (by decide))
theorem Oper_blanks {s : Str} (h : Oper s) : Goes .E (' ' :: (s ++ [' '])) .W :=
  Goes.append (s := [' ']) (b := .W) (Goes_of0 (by decide)) (Goes.append (b := .R) h (Goes_of0 (by decide)))

theorem T_val {a e : St} {s : Str} {qs : List Prog} (h : Wordy s) (ha : a ≤ .X) (hq : T .E qs e) : T a (.txt s :: qs) e :=
  T_txt (le_code ha) (Goes.le h ha (St.le_refl _)) hq
theorem T_txtR {a e : St} {s : Str} {qs : List Prog} (h : Wordy s) (ha : a ≤ .X) (hq : T .W qs e) : T a (Prog.txtR s :: qs) e :=
  T_txt (le_code ha) (Goes_blank h ha) hq
theorem T_txtLR {e : St} {s : Str} {qs : List Prog} (h : Oper s) (hq : T .W qs e) : T .E (Prog.txtLR s :: qs) e :=
  T_txt (by decide) (Oper_blanks h) hq
theorem T_tN {a e : St} {s : String} {qs : List Prog} (h : a ≤ .code ∧ goes0 a s.toList .E = true) (h' : T .E qs e) : T a (Prog.t s :: qs) e := T_txt h.1 (Goes_of0 h.2) h'
theorem T_tB {a e : St} {s : String} {qs : List Prog} (h : a ≤ .code ∧ goes0 a s.toList .W = true) (h' : T .W qs e) : T a (Prog.t s :: qs) e := T_txt h.1 (Goes_of0 h.2) h'
theorem T_tO {a e : St} {s : String} {qs : List Prog} (h : a ≤ .code ∧ goes0 a s.toList .O = true) (h' : T .O qs e) : T a (Prog.t s :: qs) e := T_txt h.1 (Goes_of0 h.2) h'
theorem T_tX {a e : St} {s : String} {qs : List Prog} (h : a ≤ .code ∧ goes0 a s.toList .X = true) (h' : T .X qs e) : T a (Prog.t s :: qs) e := T_txt h.1 (Goes_of0 h.2) h'
theorem T_tQ {a e : St} {s : String} {qs : List Prog} (h : a ≤ .code ∧ goes0 a s.toList .R = true) (h' : T .R qs e) : T a (Prog.t s :: qs) e := T_txt h.1 (Goes_of0 h.2) h'
theorem T_tL {a e : St} {s : String} {qs : List Prog} (h : a ≤ .code ∧ goes0 a (' ' :: s.toList) .E = true) (h' : T .E qs e) : T a (Prog.tL s :: qs) e := T_txt h.1 (Goes_of0 h.2) h'
theorem T_tR {a e : St} {s : String} {qs : List Prog} (h : a ≤ .code ∧ goes0 a (s.toList ++ [' ']) .W = true) (h' : T .W qs e) : T a (Prog.tR s :: qs) e := T_txt h.1 (Goes_of0 h.2) h'
theorem T_tLR {a e : St} {s : String} {qs : List Prog} (h : a ≤ .code ∧ goes0 a (' ' :: (s.toList ++ [' '])) .W = true) (h' : T .W qs e) : T a (Prog.tLR s :: qs) e := T_txt h.1 (Goes_of0 h.2) h'
theorem T_nilp {a e : St} {qs : List Prog} (ha : a ≤ .code) (h : T a qs e) : T a (Prog.nil :: qs) e := T_txt ha (Goes_nil (St.le_refl _)) h

/-! ### Wrappers -/

theorem T_wcp {a e : St} {i : Nat} {p : Option Punc} {ps qs : List Prog} (h : T a ps .E) (h' : T .E qs e) :
    T a (Prog.withCommentsAndPunc i p ps :: qs) e := by
  refine T_concat ?_
  simp only [List.cons_append, List.nil_append, List.append_assoc]
  exact T_pre (T_ifDangling (T_concat (T_app h (T_ifDangling (T_post (T_punctOpt h'))))))
theorem T_wcpa {a e : St} {i : Nat} {p : Option Punc} {ps qs : List Prog} (h : T a ps .E) (h' : T .E qs e) :
    T a (Prog.withCommentsAndPuncAttached i p ps :: qs) e := by
  refine T_concat ?_
  simp only [List.cons_append, List.nil_append, List.append_assoc]
  exact T_pre (T_ifDangling (T_concat (T_app h (T_punctOpt (T_ifDangling (T_post h'))))))
theorem T_bwcpN {a e : St} {n : Loc} {ps qs : List Prog} (h : T a ps .E) (h' : T .E qs e) :
    T a (Prog.New.bwcp n ps :: qs) e := T_wcp h h'
theorem T_bwcp0 {a b e : St} {n : Loc} {ps qs : List Prog} (hp : Punc.from n = none) (h : T a ps b) (h' : T b qs e) :
    T a (Prog.New.bwcp n ps :: qs) e := by
  refine T_concat ?_
  rw [hp]
  simp only [List.cons_append, List.nil_append, List.append_assoc, Prog.punctOpt]
  exact T_pre (T_ifDangling (T_concat (T_app h (T_ifDangling (T_post h')))))
theorem T_bwcpK {a b e : St} {n : Loc} {ps qs : List Prog} (h : T a ps b) (hb : b ≤ .E) (hb' : St.N ≤ b) (h' : T b qs e) :
    T a (Prog.New.bwcp n ps :: qs) e := by
  refine T_concat ?_
  simp only [List.cons_append, List.nil_append, List.append_assoc]
  refine T_pre (T_ifDangling (T_concat (T_app h (T_ifDangling (T_post ?_)))))
  cases Punc.from n with
  | none => exact h'
  | some p => exact T_punct (St.le_trans hb (by decide)) (T_start hb' h')
theorem T_bwc {a e : St} {n : Loc} {ps qs : List Prog} (h : T a (ps ++ qs) e) : T a (Prog.New.bwc n ps :: qs) e := by
  refine T_concat ?_
  simp only [List.cons_append, List.nil_append]
  refine T_pre (T_ifDangling (T_concat ?_))
  rw [List.append_assoc]
  exact T_eq (by simp only [gss_append, List.cons_append, gss, gs, List.nil_append]) h
theorem T_paren {a e : St} {ps qs : List Prog} (hk : Kids .E ps) (ha : a ≤ .X) (h : T .E qs e) :
    T a (Prog.New.parenList ps :: qs) e :=
  T_start (ha) (T_group (T_surround hk (by decide) (by decide) (by decide) (by decide) h))
theorem T_declarators {a e : St} {ps qs : List Prog} (hk : Kids .E ps) (ha : a ≤ .X) (h : T (a.or .E) qs e) :
    T a (Prog.New.declaratorsDoc ps :: qs) e := by
  unfold Prog.New.declaratorsDoc
  split
  · exact T_kid (hk _ (by simp)) ha (T_start (St.le_or_right _ _) h)
  · exact T_group (T_indent (T_inter hk ha (by decide) h))
theorem T_chain {a e : St} {c : Option ChainingContext} {o : Prog} {link qs : List Prog} (ho : Kid .E o) (ha : a ≤ .X)
    (hl : T (St.E.or .L) link .E) (h : T .E qs e) : T a (Prog.New.chainDoc c o link :: qs) e := by
  have hl' : T .E link .E := T_start (by decide) hl
  have key : ∀ {b : Bool}, T a (([o] ++ (if b then [Prog.maybeline] else []) ++ link) ++ qs) e := by
    intro b
    rw [List.append_assoc, List.append_assoc]
    refine T_kid ho ha ?_
    cases b
    · simpa using T_app hl' h
    · simpa using T_maybe (by decide) (T_app hl h)
  unfold Prog.New.chainDoc
  cases c with
  | none => exact T_concat (T_kid ho ha (T_app hl' h))
  | some c =>
    dsimp only
    split
    · exact T_group (T_indent (T_concat key))
    · exact T_concat key
theorem T_spaced {a e : St} {o : Option Prog} {qs : List Prog} (ho : OptK .E o) (ha : a ≤ .R) (h : T (a.or .E) qs e) :
    T a (Prog.New.spaced o ++ qs) e := by
  cases o with
  | none => exact T_start (St.le_or_left _ _) h
  | some p =>
    refine T_start ha (T_tB (by decide) (T_kid (ho p rfl) (by decide) (T_start (St.le_or_right _ _) h)))
theorem T_spacedL {a e : St} {o : Option Prog} (ho : OptK .E o) (ha : a ≤ .R) (h : T (a.or .E) [] e) :
    T a (Prog.New.spaced o) e := by
  rw [← List.append_nil (Prog.New.spaced o)]; exact T_spaced ho ha h
theorem T_annotated {a e : St} {ps : List Prog} {s : Str} (hk : Kids .W ps) (hs : Wordy s) (ha : a ≤ .X) (h : St.E ≤ e) :
    T a (Prog.New.annotatedName ps s) e := by
  unfold Prog.New.annotatedName
  split
  · exact T_val hs ha (T_nil h)
  · rename_i hne
    exact T_interNe hk (by rintro rfl; exact hne rfl) ha (by decide) (T_tB (by decide) (T_val hs (by decide) (T_nil h)))

/-! ### Lists of kids -/

theorem Kids_nil {e : St} : Kids e [] := fun _ h => absurd h (by simp)
theorem Kids_cons {e : St} {p : Prog} {ps : List Prog} (h : Kid e p) (h' : Kids e ps) : Kids e (p :: ps) := by
  intro q hq
  rcases List.mem_cons.1 hq with rfl | hq
  · exact h
  · exact h' q hq
theorem Kids_append {e : St} {ps qs : List Prog} (h : Kids e ps) (h' : Kids e qs) : Kids e (ps ++ qs) := by
  intro q hq
  rcases List.mem_append.1 hq with hq | hq
  · exact h q hq
  · exact h' q hq
theorem Kids_opt {e : St} {o : Option Prog} (h : OptK e o) : Kids e (Prog.opt o) := by
  cases o with
  | none => exact Kids_nil
  | some p => exact Kids_cons (h p rfl) Kids_nil
theorem Kids_ite {e : St} {c : Prop} [Decidable c] {ps qs : List Prog} (h : Kids e ps) (h' : Kids e qs) :
    Kids e (if c then ps else qs) := by split <;> assumption
theorem Kid_le {e e' : St} {p : Prog} (h : Kid e p) (h' : e ≤ e') : Kid e' p := T_end h h'
theorem Kid_of {e : St} {p : Prog} (h : T .X [p] e) : Kid e p := h
theorem Seg_of {ps : List Prog} (h : T .E ps .E) : Seg ps := h
theorem OptK_get {e : St} {p : Prog} (h : OptK e (some p)) : Kid e p := h p rfl
theorem Kid_last {e : St} {ps : List Prog} {p : Prog} (h : Kids e ps) (hp : ps.getLast? = some p) : Kid e p :=
  h p (List.mem_of_getLast? hp)
theorem Kids_head {e : St} {p : Prog} {ps : List Prog} (h : Kids e (p :: ps)) : Kid e p := h p (.head _)
theorem Kids_tail {e : St} {p : Prog} {ps : List Prog} (h : Kids e (p :: ps)) : Kids e ps := fun q hq => h q (.tail _ hq)
theorem Mems_nil {e : St} : Mems e [] := fun _ h => absurd h (by simp)

/-! ### Results -/

theorem P_opt {α : Type} {e : St} {o : Option α} {f : α → R Prog} (h : ∀ x, o = some x → P (f x) (Kid e)) :
    P (optR o f) (OptK e) := by
  refine P_of fun r hr p hp => ?_
  subst hp
  cases o with
  | none => cases hr
  | some x =>
    simp only [optR] at hr
    split at hr
    · rename_i b hb
      cases hr
      exact P_get (h x rfl) hb
    · cases hr

theorem P_optLed {α : Type} {o : Option α} {f : α → R Prog} (h : ∀ x, o = some x → P (f x) Led) : P (optR o f) OptLed := by
  refine P_of fun r hr p hp => ?_
  subst hp
  cases o with
  | none => cases hr
  | some x =>
    simp only [optR] at hr
    split at hr
    · rename_i b hb
      cases hr
      exact P_get (h x rfl) hb
    · cases hr

theorem P_mapLed {α : Type} {f : α → R Prog} : ∀ {xs : List α}, (∀ x ∈ xs, P (f x) Led) → P (mapR f xs) Leds
  | [], _ => by refine P_of fun r hr => ?_; cases hr; intro p hp; cases hp
  | x :: xs, h => by
    refine P_of fun r hr => ?_
    rw [mapR] at hr
    split at hr
    · cases hr
    · rename_i b hb
      split at hr
      · cases hr
      · rename_i bs hbs
        cases hr
        intro p hp
        rcases List.mem_cons.1 hp with rfl | hp
        · exact P_get (h x (by simp)) hb
        · exact P_get (P_mapLed (fun y hy => h y (by simp [hy]))) hbs p hp

theorem P_map {α : Type} {e : St} {f : α → R Prog} : ∀ {xs : List α}, (∀ x ∈ xs, P (f x) (Kid e)) → P (mapR f xs) (Kids e)
  | [], _ => by refine P_of fun r hr => ?_; cases hr; exact Kids_nil
  | x :: xs, h => by
    refine P_of fun r hr => ?_
    rw [mapR] at hr
    split at hr
    · cases hr
    · rename_i b hb
      split at hr
      · cases hr
      · rename_i bs hbs
        cases hr
        exact Kids_cons (P_get (h x (by simp)) hb) (P_get (P_map (fun y hy => h y (by simp [hy]))) hbs)

theorem P_mapM {α : Type} {e : St} {f : α → R (Bool × Prog)} : ∀ {xs : List α}, (∀ x ∈ xs, P (f x) (fun m => Kid e m.2)) →
    P (mapR f xs) (Mems e)
  | [], _ => by refine P_of fun r hr => ?_; cases hr; intro m hm; cases hm
  | x :: xs, h => by
    refine P_of fun r hr => ?_
    rw [mapR] at hr
    split at hr
    · cases hr
    · rename_i b hb
      split at hr
      · cases hr
      · rename_i bs hbs
        cases hr
        intro m hm
        rcases List.mem_cons.1 hm with rfl | hm
        · exact P_get (Q := fun m => Kid e m.2) (h x (by simp)) hb
        · exact P_get (P_mapM (fun y hy => h y (by simp [hy]))) hbs m hm

/-- The state in which the programs of a class end. -/
def endOf : Cls → St
  | .annotation => .W
  | .modifiers => .X
  | _ => .E

/-- The classes whose programs begin with a blank. -/
def ledCls : Cls → Bool
  | .catchClause => true
  | .finallyClause => true
  | .extendsInterface => true
  | .comparison => true
  | _ => false

/-- The classes whose programs may stand at the beginning of a line. -/
def plainly (c : Cls) : Bool := callable c && !ledCls c && c != .statement

/-- Kinds of operators that are printed with their text. -/
def operKinds : List String := ["assignment_operator", "value_comparison_operator", "set_comparison_operator"]
/-- Kinds of words: they begin with a letter, and are no operators. -/
def wordKind (k : String) : Bool :=
  (match k.toList with
    | c :: _ => decide ('a' ≤ c) && decide (c ≤ 'z')
    | [] => false) && !operKinds.contains k && k != "term"
/-- The classes that print the text of their node. -/
def wordCls : Cls → Bool
  | .valueNode => true
  | .valueNodeLowerCase => true
  | .valueNodeUpperCase => true
  | .fieldOption => true
  | .soqlWithTypeVariant => true
  | _ => false

/-- A tree whose texts may be printed as words and operators, without empty lists, without `for` statements that have no
update and without `USING LOOKUP` clauses. -/
structure GapTree (root : Node) : Prop where
  word : ∀ l, In root l → wordKind l.kind = true → Wordy l.value
  named : ∀ l x f, In root l → l.tryCByN f = some x → f ≠ "operator" → Wordy x.value
  mark : ∀ l x, In root l → l.kind ≠ "assignment_expression" → l.kind ≠ "binary_expression" → l.tryCByN "operator" = some x → Wordy x.value
  oper : ∀ l, In root l → operKinds.contains l.kind = true → Oper l.value ∧ Punc.from l = none
  assign : ∀ l x, In root l → l.kind = "assignment_expression" → l.tryCByN "operator" = some x → Oper x.value ∧ Punc.from x = none
  term : ∀ l, In root l → l.kind = "term" → Quotable l.value
  anno : ∀ l, In root l → l.kind = "annotation_key_value" → Mode.tight = true ∧
    (∀ x, l.tryCByN "key" = some x → Goes .X x.value .N) ∧ (∀ x, l.tryCByN "value" = some x → Goes .T x.value .E)
  alt : ∀ l x, In root l → l.tryCByN "alternative" = some x → x.kind ≠ ";"
  geo : ∀ l, In root l → l.kind = "function_expression" → l.tryCByK "geo_location_type" ≠ none →
    l.tryCByK "field_identifier" ≠ none ∨ l.tryCByK "bound_apex_expression" ≠ none
  semi : ∀ l x, In root l → x ∈ l.childrenVec → x.kind ≠ ";"
  full : ∀ l, In root l → fullKinds.contains l.kind = true → l.childrenVec ≠ []
  upd : ∀ l, In root l → l.kind = "for_statement" → l.tryCByN "update" ≠ none
  grp : ∀ l, In root l → l.kind = "group_by_clause" → l.childrenVec.filter (fun c => c.kind != "having_clause") ≠ []
  asg : ∀ l, In root l → l.kind = "variable_declarator" → l.tryCByN "value" ≠ none → l.tryCByK "assignment_operator" ≠ none
  look : ∀ l, In root l → l.kind ≠ "using_lookup_clause" ∧ l.kind ≠ "using_lookup_bind_clause"

/-- The setting: such a tree, and constructors whose programs behave. -/
structure Env (root : Node) (rec : Rec) : Prop extends GapTree root where
  call : ∀ c l, In root l → plainly c = true → (wordCls c = true → Wordy l.value) → P (rec c l) (Kid (endOf c))
  led : ∀ c l, In root l → ledCls c = true → P (rec c l) Led
  args : ∀ l, In root l → P (rec .annotationArgumentList l) (fun p => T .E [p] .E)
  sign : ∀ l, In root l → Oper l.value → Punc.from l = none → P (rec .valueNode l) Infix
  stmt : ∀ l, In root l → P (rec .statement l) (fun p => T .L [p] .E ∧ (l.kind ≠ ";" → Kid .E p))
  vals : ∀ l a e, In root l → a ≤ .code → e ≤ .E → St.N ≤ e → Goes a l.value e → P (rec .valueNode l) (fun p => T a [p] e)

/-- Words of all nodes. -/
def Words (xs : List Loc) : Prop := ∀ x ∈ xs, Wordy x.value
/-- The word of the node, if any. -/
def WordO (o : Option Loc) : Prop := ∀ x, o = some x → Wordy x.value

section
variable {root : Node} {rec : Rec}

theorem Env.wordK (E : Env root rec) {n : Loc} (hn : In root n) {k : String} (h : wordKind k = true) : WordO (n.tryCByK k) :=
  fun x hx => E.word x (in_tryCByK hn hx) (by rw [kind_tryCByK hx]; exact h)
theorem Env.wordN (E : Env root rec) {n : Loc} (hn : In root n) {k : String} (h : k ≠ "operator") : WordO (n.tryCByN k) :=
  fun x hx => E.named n x k hn hx h
theorem Env.wordsK (E : Env root rec) {n : Loc} (hn : In root n) {k : String} (h : wordKind k = true) : Words (n.tryCsByK k) :=
  fun x hx => E.word x (in_tryCsByK hn hx) (by rw [kind_tryCsByK hx]; exact h)
theorem Env.wordEq (E : Env root rec) {l : Loc} (hl : In root l) {k : String} (hk : l.kind = k) (h : wordKind k = true) : Wordy l.value :=
  E.word l hl (by rw [hk]; exact h)
theorem WordO.get {o : Option Loc} (h : WordO o) {x : Loc} (hx : o = some x) : Wordy x.value := h x hx
theorem Words.head {x : Loc} {xs : List Loc} (h : Words (x :: xs)) : Wordy x.value := h x (by simp)
theorem Words.tail {x : Loc} {xs : List Loc} (h : Words (x :: xs)) : Words xs := fun y hy => h y (by simp [hy])
theorem Words.last {x : Loc} {xs : List Loc} (h : Words xs) (hx : xs.getLast? = some x) : Wordy x.value := h x (List.mem_of_getLast? hx)
theorem Env.recP (E : Env root rec) (c : Cls) (l : Loc) (hl : In root l) (hc : plainly c = true) (hw : wordCls c = true → Wordy l.value) :
    P (rec c l) (Kid (endOf c)) := E.call c l hl hc hw
theorem InO.get {o : Option Loc} (h : InO root o) {x : Loc} (hx : o = some x) : In root x := by
  unfold InO at h; exact h x hx
theorem InL.get {xs : List Loc} (h : InL root xs) {x : Loc} (hx : x ∈ xs) : In root x := by
  unfold InL at h; exact h x hx
theorem Env.optP (E : Env root rec) {c : Cls} {o : Option Loc} (h : InO root o) (hc : plainly c = true) (hw : wordCls c = true → WordO o) :
    P (optR o (rec c)) (OptK (endOf c)) := P_opt (fun _ hx => E.call c _ (InO.get h hx) hc (fun h => hw h _ hx))
theorem Env.ledP (E : Env root rec) (c : Cls) (l : Loc) (hl : In root l) (hc : ledCls c = true) : P (rec c l) Led := E.led c l hl hc
theorem Env.optLed (E : Env root rec) {c : Cls} {o : Option Loc} (h : InO root o) (hc : ledCls c = true) :
    P (optR o (rec c)) OptLed := P_optLed (fun _ hx => E.led c _ (InO.get h hx) hc)
theorem Env.mapLed (E : Env root rec) {c : Cls} {xs : List Loc} (h : InL root xs) (hc : ledCls c = true) :
    P (mapR (rec c) xs) Leds := P_mapLed (fun _ hx => E.led c _ (InL.get h hx) hc)
theorem Env.mapP (E : Env root rec) {c : Cls} {xs : List Loc} (h : InL root xs) (hc : plainly c = true) (hw : wordCls c = true → Words xs) :
    P (mapR (rec c) xs) (Kids (endOf c)) := P_map (fun _ hx => E.call c _ (InL.get h hx) hc (fun h => hw h _ hx))
theorem Env.member (E : Env root rec) {cfg : Cfg} {c : Cls} {l : Loc} (hl : In root l) (hc : plainly c = true ∧ wordCls c = false) :
    P (Prog.New.bodyMember cfg rec c l) (fun m => Kid (endOf c) m.2) := by
  refine P_of fun m hm => ?_
  unfold Prog.New.bodyMember at hm
  split at hm
  · cases hm
  · rename_i p hp
    split at hm
    · cases hm
    · cases hm; exact P_get (E.call c l hl hc.1 (fun h => by rw [hc.2] at h; cases h)) hp
theorem Env.members (E : Env root rec) {cfg : Cfg} {c : Cls} {xs : List Loc} (h : InL root xs) (hc : plainly c = true ∧ wordCls c = false) :
    P (mapR (Prog.New.bodyMember cfg rec c) xs) (Mems (endOf c)) := P_mapM (fun _ hx => E.member (InL.get h hx) hc)
theorem Env.stmts (E : Env root rec) {cfg : Cfg} {n : Loc} (hn : In root n) {xs : List Loc} (h : ∀ x ∈ xs, x ∈ n.childrenVec) :
    P (mapR (Prog.New.bodyMember cfg rec .statement) xs) (Mems .E) := by
  refine P_mapM (fun x hx => P_of fun m hm => ?_)
  unfold Prog.New.bodyMember at hm
  split at hm
  · cases hm
  · rename_i p hp
    split at hm
    · cases hm
    · cases hm
      exact (P_get (Q := fun p => T .L [p] .E ∧ (x.kind ≠ ";" → Kid .E p)) (E.stmt x (in_vec hn (h x hx))) hp).2 (E.semi n x hn (h x hx))
theorem Env.dispatch (E : Env root rec) {tbl : List (String × Cls)} {l : Loc} {e : St} (hl : In root l)
    (h : tbl.all (fun x => decide (endOf x.2 ≤ e) && plainly x.2 && (!wordCls x.2 || wordKind x.1)) = true) :
    P (Prog.New.dispatch rec tbl l) (Kid e) := by
  refine P_of fun p hp => ?_
  unfold Prog.New.dispatch at hp
  split at hp
  · rename_i x hx
    have := List.all_eq_true.1 h x (List.mem_of_find?_eq_some hx)
    rw [Bool.and_eq_true, Bool.and_eq_true, decide_eq_true_eq] at this
    have hk : x.1 = l.kind := by simpa using List.find?_some hx
    refine Kid_le (P_get (E.call _ _ hl this.1.2 (fun h => E.word l hl ?_)) hp) this.1.1
    have h2 := this.2
    rw [h, hk] at h2
    exact h2
  · cases hp
theorem Env.dispatchs (E : Env root rec) {tbl : List (String × Cls)} {xs : List Loc} {e : St} (hl : InL root xs)
    (h : tbl.all (fun x => decide (endOf x.2 ≤ e) && plainly x.2 && (!wordCls x.2 || wordKind x.1)) = true) :
    P (mapR (Prog.New.dispatch rec tbl) xs) (Kids e) := P_map (fun x hx => E.dispatch (InL.get hl hx) h)
theorem Env.cByK (_ : Env root rec) {n : Loc} (hn : In root n) {k : String} : P (n.cByK k) (In root) := P_of fun _ h => in_cByK hn h
theorem Env.cByN (_ : Env root rec) {n : Loc} (hn : In root n) {k : String} : P (n.cByN k) (In root) := P_of fun _ h => in_cByN hn h
theorem Env.cByKw (E : Env root rec) {n : Loc} (hn : In root n) {k : String} (hk : wordKind k = true) :
    P (n.cByK k) (fun x => In root x ∧ Wordy x.value) := P_of fun _ h => ⟨in_cByK hn h, E.wordK hn hk _ (try_of_cByK h)⟩
theorem Env.cByNw (E : Env root rec) {n : Loc} (hn : In root n) {k : String} (hk : k ≠ "operator") :
    P (n.cByN k) (fun x => In root x ∧ Wordy x.value) := P_of fun _ h => ⟨in_cByN hn h, E.wordN hn hk _ (try_of_cByN h)⟩
theorem Env.firstC (_ : Env root rec) {n : Loc} (hn : In root n) : P n.firstC (In root) := P_of fun _ h => in_firstC hn h
theorem Env.csByK (_ : Env root rec) {n : Loc} (hn : In root n) {k : String} : P (n.csByK k) (fun cs => InL root cs ∧ cs ≠ []) := by
  refine P_of fun _ h => ⟨by unfold InL; exact fun _ hc => in_csByK hn h hc, ?_⟩
  rintro rfl
  unfold Loc.csByK at h
  split at h <;> simp_all
theorem Env.csByKw (E : Env root rec) {n : Loc} (hn : In root n) {k : String} (hk : wordKind k = true) :
    P (n.csByK k) (fun cs => (InL root cs ∧ cs ≠ []) ∧ Words cs) := by
  refine P_of fun cs h => ⟨P_get (Q := fun cs => InL root cs ∧ cs ≠ []) (E.csByK hn) h, ?_⟩
  have : cs = n.tryCsByK k := by
    unfold Loc.csByK at h
    split at h <;> simp_all
  rw [this]
  exact E.wordsK hn hk
theorem Env.csByN (_ : Env root rec) {n : Loc} (hn : In root n) {k : String} : P (n.csByN k) (fun cs => InL root cs ∧ cs ≠ []) := by
  refine P_of fun _ h => ⟨by unfold InL; exact fun _ hc => in_csByN hn h hc, ?_⟩
  rintro rfl
  unfold Loc.csByN at h
  split at h
  · cases h
  · rename_i hne
    simp only [Except.ok.injEq] at h
    exact hne (by rw [h])
theorem Env.nextNamed (_ : Env root rec) {n : Loc} (hn : In root n) : P n.nextNamed (In root) := P_of fun _ h => in_nextNamed hn h
theorem Env.check (_ : Env root rec) {n : Loc} {k : String} : P (assertCheck n k) (fun _ => n.kind = k) := by
  refine P_of fun _ h => ?_
  unfold assertCheck at h
  split at h
  · rename_i hk; exact eq_of_beq hk
  · cases h
theorem Env.valueN (E : Env root rec) {n : Loc} (hn : In root n) {k : String} (hk : k ≠ "operator") : P (n.cvalueByN k) Wordy := by
  refine P_of fun s hs => ?_
  unfold Loc.cvalueByN at hs
  split at hs
  · rename_i c hc; cases hs; exact E.wordN hn hk c hc
  · cases hs
theorem Env.valueK (E : Env root rec) {n : Loc} (hn : In root n) {k : String} (hk : wordKind k = true) : P (n.cvalueByK k) Wordy := by
  refine P_of fun s hs => ?_
  unfold Loc.cvalueByK at hs
  split at hs
  · rename_i c hc; cases hs; exact E.wordK hn hk c hc
  · cases hs
theorem Env.keyword (_ : Env root rec) {tbl : List (String × String)} {l : Loc}
    (h : tbl.all (fun x => goes0 .X x.2.toList .E) = true) : P (Prog.New.keyword tbl l) (Kid .E) := by
  refine P_of fun p hp => ?_
  unfold Prog.New.keyword at hp
  split at hp
  · rename_i x hx
    have := List.all_eq_true.1 h x (List.mem_of_find?_eq_some hx)
    cases hp
    exact Kid_of (T_tN ⟨by decide, this⟩ (T_nil (St.le_refl _)))
  · cases hp
end

theorem T_sAfter {a e : St} {x : Ins} {o c : String} {so pc : Prog} {ps qs : List Prog} (hk : Kids .E ps)
    (hx : SepOk .E x) (h1 : T0 a [Prog.t o, .indent so] .X ∧ T0 .E [pc, Prog.t c] .E ∧ T0 a [Prog.t o, Prog.t c] .E) (h : T .E qs e) :
    T a (Prog.surround ps x (.sAfter o so) (.before pc c) :: qs) e := T_surround hk hx h1.1 h1.2.1 h1.2.2 h
theorem T_sAfter' {a e : St} {x : Ins} {o c : String} {so : Prog} {ps qs : List Prog} (hk : Kids .E ps)
    (hx : SepOk .E x) (h1 : T0 a [Prog.t o, .indent so] .X ∧ T0 .E [Prog.t c] .E ∧ T0 a [Prog.t o, Prog.t c] .E) (h : T .E qs e) :
    T a (Prog.surround ps x (.sAfter o so) (.s c) :: qs) e := T_surround hk hx h1.1 h1.2.1 h1.2.2 h
theorem T_sPlain {a e : St} {x : Ins} {o c : String} {ps qs : List Prog} (hk : Kids .E ps)
    (hx : SepOk .E x) (h1 : T0 a [Prog.t o] .X ∧ T0 .E [Prog.t c] .E ∧ T0 a [Prog.t o, Prog.t c] .E) (h : T .E qs e) :
    T a (Prog.surround ps x (.s o) (.s c) :: qs) e := T_surround hk hx h1.1 h1.2.1 h1.2.2 h
theorem T_interMap {f : Loc → R Prog} {xs : List Loc} {a e : St} {x : Ins} {ps qs : List Prog}
    (hm : mapR f xs = .ok ps) (hne : xs ≠ []) (hk : Kids .E ps) (ha : a ≤ .X)
    (hx : SepOk .E x) (h : T .E qs e) : T a (Prog.intersperse ps x :: qs) e :=
  T_interNe hk (mapR_ne hm hne) ha hx h
theorem T_declMap {f : Loc → R Prog} {xs : List Loc} {a e : St} {ps qs : List Prog}
    (hm : mapR f xs = .ok ps) (hne : xs ≠ []) (hk : Kids .E ps) (ha : a ≤ .X) (h : T .E qs e) :
    T a (Prog.New.declaratorsDoc ps :: qs) e := by
  unfold Prog.New.declaratorsDoc
  split
  · exact T_kid (hk _ (by simp)) ha h
  · exact T_group (T_indent (T_interNe hk (mapR_ne hm hne) ha (by decide) h))
theorem T_interVec {root : Node} {rec : Rec} {n : Loc} {k : String} (E : Env root rec) (hn : In root n) {f : Loc → R Prog} {a e : St}
    {x : Ins} {ps qs : List Prog} (hm : mapR f n.childrenVec = .ok ps) (hkd : n.kind = k) (hf : fullKinds.contains k = true) (hk : Kids .E ps)
    (ha : a ≤ .X) (hx : SepOk .E x) (h : T .E qs e) : T a (Prog.intersperse ps x :: qs) e :=
  T_interNe hk (mapR_ne hm (E.full n hn (hkd ▸ hf))) ha hx h
theorem T_interNeN {a e : St} {x : Ins} {ps qs : List Prog} (hne : ¬ ps.isEmpty = true) (hk : Kids .E ps) (ha : a ≤ .X)
    (hx : SepOk .E x) (h : T .E qs e) : T a (Prog.intersperse ps x :: qs) e :=
  T_interNe hk (by rintro rfl; exact hne rfl) ha hx h
theorem T_inter1N {a e : St} {x : Ins} {p : Prog} {ps qs : List Prog} (hk : Kids .E (p :: ps)) (ha : a ≤ .X) (hx : SepOk .E x)
    (h : T .E qs e) : T a (Prog.intersperse (p :: ps) x :: qs) e := T_inter1 hk ha hx h
theorem T_inter2N {a e : St} {x : Ins} {p : Prog} {ps ps' qs : List Prog} (hk : Kids .E ((p :: ps) ++ ps')) (ha : a ≤ .X)
    (hx : SepOk .E x) (h : T .E qs e) : T a (Prog.intersperse ((p :: ps) ++ ps') x :: qs) e := T_inter1 hk ha hx h
theorem T_interMid {a e : St} {x : Ins} {p : Prog} {ps ps' qs : List Prog} (hk : Kids .E (ps ++ p :: ps')) (ha : a ≤ .X)
    (hx : SepOk .E x) (h : T .E qs e) : T a (Prog.intersperse (ps ++ p :: ps') x :: qs) e := T_interNe hk (by simp) ha hx h
theorem T_interVec' {n : Loc} {f : Loc → R Prog} {a e : St} {x : Ins} {ps qs : List Prog} (hm : mapR f n.childrenVec = .ok ps)
    (hne : ¬ n.childrenVec.isEmpty = true) (hk : Kids .E ps) (ha : a ≤ .X) (hx : SepOk .E x) (h : T .E qs e) :
    T a (Prog.intersperse ps x :: qs) e :=
  T_interNe hk (mapR_ne hm (fun h => hne (by rw [h]; rfl))) ha hx h
theorem T_guard {a e : St} {ps : List Prog} (h : T a ps e) : T a ps e := h
theorem T_seg {a e : St} {ps qs : List Prog} (h : Seg ps) (ha : a ≤ .E) (h' : T .E qs e) : T a (ps ++ qs) e :=
  T_start ha (T_app h h')
theorem T_segL {a e : St} {ps : List Prog} (h : Seg ps) (ha : a ≤ .E) (he : St.E ≤ e) : T a ps e := T_start ha (T_end h he)
theorem T_kidN {a e : St} {p : Prog} {qs : List Prog} (hk : Kid .E p) (ha : a ≤ .X) (h : T .E qs e) : T a (p :: qs) e :=
  T_kid hk ha h
theorem T_kidB {a e : St} {p : Prog} {qs : List Prog} (hk : Kid .W p) (ha : a ≤ .X) (h : T .W qs e) : T a (p :: qs) e :=
  T_kid hk ha h
theorem T_kidL {a e : St} {p : Prog} {qs : List Prog} (hk : Kid .X p) (ha : a ≤ .X) (h : T .X qs e) : T a (p :: qs) e :=
  T_kid hk ha h
theorem T_led {a e : St} {p : Prog} {qs : List Prog} (hk : Led p) (ha : a ≤ .E) (h : T .E qs e) : T a (p :: qs) e :=
  T_start ha (T_cons hk h)
theorem T_optLed {a e : St} {o : Option Prog} {qs : List Prog} (hk : OptLed o) (ha : a ≤ .E) (h : T .E qs e) :
    T a (Prog.opt o ++ qs) e := by
  cases o with
  | none => exact T_start ha h
  | some p => exact T_led (hk p rfl) ha h
theorem T_leds {a e : St} {ps qs : List Prog} (hk : Leds ps) (ha : a ≤ .E) (h : T .E qs e) : T a (ps ++ qs) e := by
  induction ps generalizing a with
  | nil => exact T_start ha h
  | cons p ps ih => exact T_led (hk p (by simp)) ha (ih (fun q hq => hk q (by simp [hq])) (by decide))
theorem Led_of {p : Prog} (h : T .E [p] .E) : Led p := h
theorem P_dml {n : Loc} : P (Prog.New.dmlTypeVariant n) (Kid .E) := by
  refine P_of fun p hp => ?_
  unfold Prog.New.dmlTypeVariant at hp
  split at hp
  · rename_i h
    cases hp
    simp only [List.mem_cons, List.not_mem_nil, or_false] at h
    rcases h with h | h | h | h | h | h <;> (rw [h]; exact Kid_of (T_tN (by decide) (T_nil (St.le_refl _))))
  · cases hp

theorem T_wp {a e : St} {p : Prog} {x : Sc} (h : T a [p] e) (hx : a.mem x = true) : wp Mode.tight (gs p) e.mem x = true := by
  have := h x hx
  rwa [gss, gss, List.append_nil] at this

/-! ### Texts made of texts of the tree -/

theorem Goes_map {f : Char → Char} (hf : ∀ c, cc (f c) = cc c) {a e : St} {s : Str} (h : Goes a s e) : Goes a (s.map f) e := by
  intro x hx
  rw [scan_map hf]
  exact h x hx
theorem Wordy_lower {s : Str} (h : Wordy s) : Wordy (Prog.New.toLower s) := Goes_map cc_lower h
theorem Wordy_upper {s : Str} (h : Wordy s) : Wordy (Prog.New.toUpper s) := Goes_map cc_upper h
theorem Wordy_quote {s : Str} (h : Quotable s) : Wordy ('\'' :: (s ++ ['\''])) := by
  refine Goes.append (s := ['\'']) (b := ⟨fun x => x == .I⟩) (Goes_of0 (by decide)) (Goes.append (b := ⟨fun x => x == .I⟩) ?_ (Goes_of0 (by decide)))
  intro x hx
  simp only [beq_iff_eq] at hx
  subst hx
  exact ⟨_, h, rfl⟩
theorem Wordy_colon {s r : Str} (h : Wordy s) (hr : Wordy r) : Wordy (s ++ ':' :: r) :=
  Goes.append (b := .E) h (Goes.append (s := [':']) (b := .X) (Goes_of0 (by decide)) hr)

/-- The operators with a precedence. -/
def precOps : List String :=
  ["=", "+=", "-=", "*=", "/=", "%=", "&=", "|=", "^=", "<<=", ">>=", ">>>=", "?", ":", "||", "??", "&&", "|", "^", "&",
    "==", "!=", "===", "!==", "<>", ">", "<", ">=", "<=", "instanceof", "<<", ">>", ">>>", "+", "-", "*", "/", "%",
    "!", "~", "++", "--"]
/-- Everything a binary expression prints as its operator. -/
theorem T_binop {e : St} {k : String} {m : Nat} {qs : List Prog} (h : getPrecedence k = .ok m) (h' : T .R qs e) :
    T .W (Prog.t k :: qs) e := by
  refine T_tQ ?_ h'
  refine ⟨by decide, ?_⟩
  by_cases hk : k ∈ precOps
  · exact List.all_eq_true.1 (show precOps.all (fun k => goes0 .W k.toList .R) = true by decide) k hk
  · simp only [precOps, List.mem_cons, List.not_mem_nil, or_false, not_or] at hk
    simp [getPrecedence, hk] at h
theorem T_eqTight {v : Prog} (ht : Mode.tight = true) (hv : T .T [v] .E) : T .N [Prog.t "=", v] .E := by
  refine T_txt (b := .T) (by decide) ?_ hv
  intro x hx
  have : x = .N := by simpa [St.N] using hx
  subst this
  rw [ht]
  exact ⟨_, rfl, rfl⟩
theorem T_punctS {a e : St} {p : Punc} {qs : List Prog} (hp : p.text = [';']) (ha : a ≤ (St.C.or .L)) (h : T .N qs e) : T a (.punct p :: qs) e :=
  T_eq (ps := .txt [';'] :: qs) (by simp only [gss, gs, hp]) (T_txt (St.le_trans ha (by decide)) (Goes.le (a := St.C.or .L) (Goes_of0 (by decide)) ha (St.le_refl _)) h)
theorem T_infix {e : St} {p : Prog} {qs : List Prog} (hk : Infix p) (h : T .R qs e) : T .W (p :: qs) e := T_cons hk h
theorem T_oper {e : St} {s : Str} {qs : List Prog} (hs : Oper s) (h : T .R qs e) : T .W (.txt s :: qs) e := T_txt (by decide) hs h
theorem Infix_of {p : Prog} (h : T .W [p] .R) : Infix p := h
theorem T_semi {a e : St} {qs : List Prog} (ha : a ≤ (St.C.or .L)) (h : T .N qs e) : T a (Prog.t ";" :: qs) e :=
  T_txt (St.le_trans ha (by decide)) (Goes.le (a := St.C.or .L) (Goes_of0 (by decide)) ha (St.le_refl _)) h

attribute [irreducible] T Seg Kid Kids OptK Mems SepOk Wordy Led Leds OptLed Oper Quotable Infix Words WordO

/-- Hypotheses about kids, up to the end state of their class. -/
macro "wh" : tactic => `(tactic| with_reducible first
  | assumption
  | exact OptK_get ‹_›
  | (refine Kid_last ?_ ?_ <;> assumption))

/-- Texts of the tree. -/
macro "wl" : tactic => `(tactic| with_reducible first
  | assumption
  | (refine Wordy_lower ?_; assumption)
  | (refine Wordy_upper ?_; assumption)
  | (refine Words.last ?_ ?_ <;> assumption)
  | (refine Wordy_colon (Wordy_upper ?_) ?_ <;> assumption)
  | (refine Env.wordEq ‹_› ?_ (by assumption) ?_; (· inn); (· decide))
  | (refine WordO.get (Env.wordK ‹_› ?_ ?_) (by assumption); (· inn); (· decide))
  | (refine WordO.get (Env.wordN ‹_› ?_ ?_) (by assumption); (· inn); (· decide)))

/-- Words for calls. -/
macro "wo" : tactic => `(tactic| first
  | (intro h; exact absurd h (by decide))
  | (intro _; with_reducible first
    | assumption
    | wl
    | (refine Env.wordK ‹_› ?_ ?_; (· inn); (· decide))
    | (refine Env.wordN ‹_› ?_ ?_; (· inn); (· decide))
    | (refine Env.wordsK ‹_› ?_ ?_; (· inn); (· decide))
    | (refine Words.head ?_; assumption)
    | (refine Words.tail ?_; assumption)))

/-- One step of the machine. -/
syntax "ws" : tactic
/-- Kids of a list. -/
syntax "wk" : tactic

macro_rules
  | `(tactic| wk) => `(tactic| first
    | wh
    | with_reducible exact Kids_nil
    | ((with_reducible refine Kids_cons ?_ ?_) <;> wk)
    | ((with_reducible refine Kids_append ?_ ?_) <;> wk)
    | ((with_reducible refine Kids_opt ?_); wh)
    | ((with_reducible refine Kids_ite ?_ ?_) <;> wk)
    | ((with_reducible refine Kid_of ?_); repeat' ws))

macro_rules
  | `(tactic| ws) => `(tactic| first
    | ((with_reducible refine T_nil ?_); decide)
    | ((with_reducible refine T_kidN ?_ ?_ ?_); (· wh); (· decide))
    | ((with_reducible refine T_kidB ?_ ?_ ?_); (· wh); (· decide))
    | ((with_reducible refine T_kidL ?_ ?_ ?_); (· wh); (· decide))
    | ((with_reducible refine T_led ?_ ?_ ?_); (· wh); (· decide))
    | ((with_reducible refine T_tN ?_ ?_); (· decide))
    | ((with_reducible refine T_tB ?_ ?_); (· decide))
    | ((with_reducible refine T_tO ?_ ?_); (· decide))
    | ((with_reducible refine T_bracketBody ?_ ?_ ?_); (· wh); (· decide))
    | ((with_reducible refine T_declMap (by assumption) (by assumption) ?_ ?_ ?_); (· wh); (· decide))
    | ((with_reducible refine T_declarators ?_ ?_ ?_); (· wh); (· decide))
    | ((with_reducible refine T_chain ?_ ?_ ?_ ?_); (· wh); (· decide))
    | ((with_reducible refine T_wcp ?_ ?_))
    | ((with_reducible refine T_wcpa ?_ ?_))
    | ((with_reducible refine T_spaced ?_ ?_ ?_); (· wh); (· decide))
    | ((with_reducible refine T_spacedL ?_ ?_ ?_); (· wh); (· decide))
    | ((with_reducible refine T_annotated ?_ ?_ ?_ ?_); (· wh); (· wl); (· decide); (· decide))
    | ((with_reducible refine T_tL ?_ ?_); (· decide))
    | ((with_reducible refine T_tR ?_ ?_); (· decide))
    | ((with_reducible refine T_tLR ?_ ?_); (· decide))
    | ((with_reducible refine T_nilp ?_ ?_); (· decide))
    | ((with_reducible refine T_val ?_ ?_ ?_); (· wl); (· decide))
    | ((with_reducible refine T_txtR ?_ ?_ ?_); (· wl); (· decide))
    | ((with_reducible refine T_txtLR ?_ ?_); (· assumption))
    | ((with_reducible refine T_tX ?_ ?_); (· decide))
    | ((with_reducible refine T_nl ?_ ?_); (· decide))
    | ((with_reducible refine T_soft ?_ ?_); (· decide))
    | ((with_reducible refine T_maybe ?_ ?_); (· decide))
    | ((with_reducible refine T_bwc ?_); simp only [List.cons_append, List.nil_append, List.append_assoc])
    | ((with_reducible refine T_bwcpN ?_ ?_); (· (repeat' ws); done))
    | ((with_reducible refine T_bwcpN ?_ ?_))
    | ((with_reducible refine T_paren ?_ ?_ ?_); (· wk); (· decide))
    | ((with_reducible refine T_inter1N ?_ ?_ ?_ ?_); (· wk); (· decide); (· decide))
    | ((with_reducible refine T_inter2N ?_ ?_ ?_ ?_); (· wk); (· decide); (· decide))
    | ((with_reducible refine T_interMap (by assumption) (by assumption) ?_ ?_ ?_ ?_); (· wk); (· decide); (· decide))
    | ((with_reducible refine T_interVec ‹_› ‹_› (by assumption) (by assumption) ?_ ?_ ?_ ?_ ?_); (· decide); (· wk); (· decide); (· decide))
    | ((with_reducible refine T_interNeN ‹_› ?_ ?_ ?_ ?_); (· wk); (· decide); (· decide))
    | ((with_reducible refine T_interMid ?_ ?_ ?_ ?_); (· wk); (· decide); (· decide))
    | ((with_reducible refine T_interVec' (by assumption) ‹_› ?_ ?_ ?_ ?_); (· wk); (· decide); (· decide))
    | ((with_reducible refine T_inter ?_ ?_ ?_ ?_); (· wk); (· decide); (· decide))
    | ((with_reducible refine T_sAfter ?_ ?_ ?_ ?_); (· wk); (· decide); (· decide))
    | ((with_reducible refine T_sAfter' ?_ ?_ ?_ ?_); (· wk); (· decide); (· decide))
    | ((with_reducible refine T_sPlain ?_ ?_ ?_ ?_); (· wk); (· decide); (· decide))
    | ((with_reducible refine T_surroundBody ?_ ?_ ?_); (· wh); (· decide))
    | ((with_reducible refine T_interBody ?_ ?_ ?_); (· wh); (· decide))
    | ((with_reducible refine T_concat_last ?_))
    | ((with_reducible refine T_concat ?_); simp only [List.cons_append, List.nil_append, List.append_assoc])
    | (with_reducible refine T_group ?_)
    | (with_reducible refine T_indent ?_)
    | (with_reducible refine T_dedent ?_)
    | (with_reducible refine T_force ?_)
    | (with_reducible refine T_pre ?_)
    | (with_reducible refine T_post ?_)
    | (with_reducible refine T_ifDangling ?_)
    | (with_reducible refine T_rootDangling ?_)
    | ((with_reducible refine T_optN ?_ ?_ ?_); (· wh); (· decide))
    | ((with_reducible refine T_optLed ?_ ?_ ?_); (· wh); (· decide))
    | ((with_reducible refine T_optL ?_))
    | ((with_reducible refine T_optB ?_ ?_ ?_); (· wh); (· decide))
    | ((with_reducible refine T_kidsN ?_ ?_ ?_); (· wh); (· decide))
    | ((with_reducible refine T_kidsB ?_ ?_ ?_); (· wh); (· decide))
    | ((with_reducible refine T_leds ?_ ?_ ?_); (· wh); (· decide))
    | ((with_reducible refine T_iteL ?_ ?_))
    | ((with_reducible refine T_ite ?_ ?_) <;> simp only [List.cons_append, List.nil_append, List.append_assoc])
    | ((with_reducible refine T_ite1 ?_ ?_) <;> simp only [List.cons_append, List.nil_append, List.append_assoc])
    | ((with_reducible refine T_seg ?_ ?_ ?_); (· assumption); (· decide))
    | ((with_reducible refine T_segL ?_ ?_ ?_); (· assumption); (· decide); (· decide))
    | ((with_reducible refine T_guard ?_); split)
    | (simp only [List.cons_append, List.nil_append, List.append_nil, List.append_assoc]))

/-- Binds of a constructor. -/
macro "wb" E:ident hn:ident : tactic => `(tactic| first
  | ((with_reducible refine P_bind (Env.recP $E _ _ ?_ ?_ ?_) (fun _ _ _ => ?_)); (· inn); (· rfl); (· wo))
  | ((with_reducible refine P_bind (Env.optP $E ?_ ?_ ?_) (fun _ _ _ => ?_)); (· ino); (· rfl); (· wo))
  | ((with_reducible refine P_bind (Env.ledP $E _ _ ?_ ?_) (fun _ _ _ => ?_)); (· inn); (· rfl))
  | ((with_reducible refine P_bind (Env.optLed $E ?_ ?_) (fun _ _ _ => ?_)); (· ino); (· rfl))
  | ((with_reducible refine P_bind (Env.mapLed $E ?_ ?_) (fun _ _ _ => ?_)); (· inls); (· rfl))
  | ((with_reducible refine P_bind (Env.members $E ?_ ?_) (fun _ _ _ => ?_)); (· inls); (· decide))
  | ((with_reducible refine P_bind (Env.stmts $E $hn (fun _ h => h)) (fun _ _ _ => ?_)))
  | ((with_reducible refine P_bind (Env.mapP $E ?_ ?_ ?_) (fun _ _ _ => ?_)); (· inls); (· rfl); (· wo))
  | ((with_reducible refine P_bind (Env.dispatchs $E (e := .E) ?_ ?_) (fun _ _ _ => ?_)); (· inls); (· decide))
  | ((with_reducible refine P_bind (Env.member $E ?_ ?_) (fun _ _ _ => ?_)); (· inn); (· decide))
  | with_reducible refine P_bind (Env.check $E) (fun _ _ _ => ?_)
  | ((with_reducible refine P_bind (Env.valueN $E ?_ ?_) (fun _ _ _ => ?_)); (· inn); (· decide))
  | ((with_reducible refine P_bind (Env.valueK $E ?_ ?_) (fun _ _ _ => ?_)); (· inn); (· decide))
  | ((with_reducible refine P_bind (Env.cByKw $E ?_ ?_) (fun _ _ ⟨_, _⟩ => ?_)); (· inn); (· decide))
  | ((with_reducible refine P_bind (Env.cByNw $E ?_ ?_) (fun _ _ ⟨_, _⟩ => ?_)); (· inn); (· decide))
  | ((with_reducible refine P_bind (Env.cByK $E ?_) (fun _ _ _ => ?_)); (· inn))
  | ((with_reducible refine P_bind (Env.cByN $E ?_) (fun _ _ _ => ?_)); (· inn))
  | ((with_reducible refine P_bind (Env.firstC $E ?_) (fun _ _ _ => ?_)); (· inn))
  | ((with_reducible refine P_bind (Env.csByKw $E ?_ ?_) (fun _ _ ⟨⟨_, _⟩, _⟩ => ?_)); (· inn); (· decide))
  | ((with_reducible refine P_bind (Env.csByK $E ?_) (fun _ _ ⟨_, _⟩ => ?_)); (· inn))
  | ((with_reducible refine P_bind (Env.csByN $E ?_) (fun _ _ ⟨_, _⟩ => ?_)); (· inn))
  | ((with_reducible refine P_bind (Env.nextNamed $E ?_) (fun _ _ _ => ?_)); (· inn))
  | with_reducible exact P_err
  | ((with_reducible refine P_mono (Env.recP $E _ _ ?_ ?_ ?_) (fun _ h => Kid_le h ?_)); (· inn); (· rfl); (· wo); (· decide))
  | ((with_reducible refine P_mono (Env.dispatch $E (e := .E) ?_ ?_) (fun _ h => Kid_le h ?_)); (· inn); (· decide); (· decide))
  | ((with_reducible refine P_mono (Env.keyword $E ?_) (fun _ h => Kid_le h ?_)); (· decide); (· decide))
  | with_reducible refine P_bind (Q := Kid .E) ?_ (fun _ _ _ => ?_)
  | with_reducible refine P_bind (Q := Seg) ?_ (fun _ _ _ => ?_)
  | with_reducible refine P_bind (Q := fun _ => True) P_any (fun _ _ _ => ?_)
  | ((with_reducible refine P_ok (Kid_of ?_)))
  | ((with_reducible refine P_ok (Seg_of ?_)))
  | ((with_reducible refine P_ok (Led_of ?_)))
  | ((with_reducible refine P_pure (Kid_of ?_)))
  | ((with_reducible refine P_guard ?_); split))

/-- A constructor whose programs always print something. -/
macro "wt" E:ident hn:ident : tactic => `(tactic| (
  repeat' wb $E $hn
  all_goals try simp only [endOf, Prog.groupConcat, Prog.groupIndent, Prog.groupIndentConcat, Prog.groupSurround] at *
  all_goals try simp only [List.cons_append, List.nil_append, List.append_assoc]
  all_goals try repeat' ws))

end Afmt.Gap
