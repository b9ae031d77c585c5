import Verif.Lines.Syms
import Verif.ShapeTac
import Verif.Gram.C0

/-!
# Line breaks of programs: rules for the abstract machine
-/

namespace Afmt.Lines
open Afmt.Prog (Ins)
open Afmt.Gram (charsOf)

/-- Running the machine over the programs from `a` ends at most in `e`. -/
def T (a : St) (ps : List Prog) (e : St) : Prop := run a (symss ps) ≤ e

instance (a : St) (ps : List Prog) (e : St) : Decidable (T a ps e) := inferInstanceAs (Decidable (run a (symss ps) ≤ e))

/-- From every state the program ends at most in `e`. -/
def Kid (e : St) (p : Prog) : Prop := T .G [p] e

/-- `Kid` for all programs. -/
def Kids (e : St) (ps : List Prog) : Prop := ∀ p ∈ ps, Kid e p

/-- `Kid` for the program, if any. -/
def OptK (e : St) (o : Option Prog) : Prop := ∀ p, o = some p → Kid e p

/-- The program prints something. -/
def Inky (p : Prog) : Prop := charsOf (chsOf (syms p)) ≠ []

/-- The larger state. -/
def up (a b : St) : St := if a ≤ b then b else a

theorem le_G {a : St} (h : a ≠ .bad) : a ≤ .G := by cases a <;> first | decide | exact absurd rfl h

theorem T_nil {a e : St} (h : a ≤ e) : T a [] e := h

theorem T_app {a b e : St} {ps qs : List Prog} (h : T a ps b) (h' : T b qs e) : T a (ps ++ qs) e := by
  unfold T at *
  rw [symss_append, run_append]
  exact St.le_trans (run_mono h _) h'

theorem T_cons {a b e : St} {p : Prog} {qs : List Prog} (h : T a [p] b) (h' : T b qs e) : T a (p :: qs) e :=
  T_app (ps := [p]) h h'

theorem T_start {a a' e : St} {ps : List Prog} (h : a ≤ a') (h' : T a' ps e) : T a ps e := St.le_trans (run_mono h _) h'

theorem T_end {a e e' : St} {ps : List Prog} (h : T a ps e) (h' : e ≤ e') : T a ps e' := St.le_trans h h'

theorem T_concat {a e : St} {ps qs : List Prog} (h : T a (ps ++ qs) e) : T a (.concat ps :: qs) e := by
  unfold T at *; rw [symss_append] at h; rw [symss, syms]; exact h

theorem T_concat_last {a e : St} {ps : List Prog} (h : T a ps e) : T a [.concat ps] e := T_concat (by rwa [List.append_nil])

theorem T_group {a e : St} {p : Prog} {qs : List Prog} (h : T (fl a) (p :: qs) e) : T a (.group p :: qs) e := by
  unfold T at *; rw [symss] at h; rw [symss, syms]; exact h

theorem T_indent {a e : St} {p : Prog} {qs : List Prog} (h : T a (p :: qs) e) : T a (.indent p :: qs) e := by
  unfold T at *; rw [symss] at h; rw [symss, syms]; exact h

theorem T_dedent {a e : St} {p : Prog} {qs : List Prog} (h : T a (p :: qs) e) : T a (.dedent p :: qs) e := by
  unfold T at *; rw [symss] at h; rw [symss, syms]; exact h

theorem T_ifDangling {a e : St} {i : Nat} {p q : Prog} {qs : List Prog} (h : T a (q :: qs) e) :
    T a (.ifDangling i p q :: qs) e := by
  unfold T at *; rw [symss] at h; rw [symss, syms]; exact h

theorem T_pre {a e : St} {i : Nat} {qs : List Prog} (h : T a qs e) : T a (.pre i :: qs) e := by
  unfold T at *; rw [symss, syms]; exact h
theorem T_post {a e : St} {i : Nat} {qs : List Prog} (h : T a qs e) : T a (.post i :: qs) e := by
  unfold T at *; rw [symss, syms]; exact h
theorem T_rootDangling {a e : St} {i : Nat} {qs : List Prog} (h : T a qs e) : T a (.rootDangling i :: qs) e := by
  unfold T at *; rw [symss, syms]; exact h
theorem T_dangling {a e : St} {i : Nat} {qs : List Prog} (h : T a qs e) : T a (.dangling i :: qs) e := by
  unfold T at *; rw [symss, syms]; exact h
theorem T_force {a e : St} {qs : List Prog} (h : T a qs e) : T a (.forceBreak :: qs) e := by
  unfold T at *; rw [symss, syms]; exact h
theorem T_fail {a e : St} {x : Panic} {qs : List Prog} (h : T a qs e) : T a (.fail x :: qs) e := by
  unfold T at *; rw [symss, syms]; exact h
theorem T_nl {a e : St} {qs : List Prog} (h : T (brk a) qs e) : T a (.nl :: qs) e := by
  unfold T at *; rw [symss, syms]; exact h
theorem T_soft {a e : St} {qs : List Prog} (h : T (brk a) qs e) : T a (.softline :: qs) e := by
  unfold T at *; rw [symss, syms]; exact h
theorem T_maybe {a e : St} {qs : List Prog} (h : T (brk a) qs e) : T a (.maybeline :: qs) e := by
  unfold T at *; rw [symss, syms]; exact h
theorem T_sep {a e : St} {b : Bool} {qs : List Prog} (h : T (sp a) qs e) : T a (.sep b :: qs) e := by
  unfold T at *; rw [symss, syms]; exact h

theorem tx_I {a : St} (h : a ≠ .bad) : tx a = .I := by cases a <;> first | rfl | exact absurd rfl h

/-- A visible text. -/
theorem T_ink {a e : St} {s : Str} {qs : List Prog} (ha : a ≠ .bad) (hc : clean s = true) (hi : ink s ≠ [])
    (h : T .I qs e) : T a (.txt s :: qs) e := by
  unfold T at *
  rw [symss, syms, List.singleton_append, run, step, if_pos hc, if_neg hi, tx_I ha]
  exact h

/-- Any text. -/
theorem T_txt {a e : St} {s : Str} {qs : List Prog} (ha : a ≠ .bad) (hc : clean s = true) (h : T (fl a) qs e) :
    T a (.txt s :: qs) e := by
  unfold T at *
  rw [symss, syms, List.singleton_append, run, step, if_pos hc]
  split
  · exact h
  · rw [tx_I ha]
    exact St.le_trans (run_mono (show St.I ≤ fl a from Nat.zero_le _) _) h

theorem T_punct {a e : St} {p : Punc} {qs : List Prog} (ha : a ≠ .bad) (h : T .I qs e) : T a (.punct p :: qs) e := by
  unfold T at *
  rw [symss, syms, List.singleton_append, run, step]
  have h1 : clean p.text = true := by unfold Punc.text; split <;> decide
  have h2 : ink p.text ≠ [] := by unfold Punc.text; split <;> decide
  rw [if_pos h1, if_neg h2, tx_I ha]
  exact h

theorem T_punctOpt {a e : St} {o : Option Punc} {qs : List Prog} (ha : a ≠ .bad) (h : T a qs e) :
    T a (Prog.punctOpt o ++ qs) e := by
  cases o with
  | none => exact h
  | some p => exact T_punct ha (T_start (show St.I ≤ a from Nat.zero_le _) h)

theorem T_kid {a b e : St} {p : Prog} {qs : List Prog} (hk : Kid b p) (ha : a ≠ .bad) (h : T b qs e) : T a (p :: qs) e :=
  T_cons (T_start (le_G ha) hk) h

theorem up_left (a b : St) : a ≤ up a b := by unfold up; split <;> first | assumption | exact St.le_refl _
theorem up_right (a b : St) : b ≤ up a b := by cases a <;> cases b <;> decide

theorem T_opt {a b e : St} {o : Option Prog} {qs : List Prog} (hk : OptK b o) (ha : a ≠ .bad) (h : T (up a b) qs e) :
    T a (Prog.opt o ++ qs) e := by
  cases o with
  | none => exact T_start (up_left _ _) h
  | some p => exact T_kid (hk p rfl) ha (T_start (up_right _ _) h)

/-- Kids one after the other. -/
theorem T_kids {a b e : St} {ps qs : List Prog} (hk : Kids b ps) (ha : a ≠ .bad) (hb : b ≠ .bad) (h : T (up a b) qs e) :
    T a (ps ++ qs) e := by
  have key : ∀ ps a, a ≠ .bad → Kids b ps → a ≤ up a b → T a ps (up a b) := by
    intro ps
    induction ps with
    | nil => intro a _ _ h; exact h
    | cons p ps ih =>
      intro a ha hk _
      refine T_kid (hk p (by simp)) ha ?_
      have := ih b hb (fun q hq => hk q (by simp [hq])) (up_left _ _)
      refine T_end this ?_
      have : up b b = b := by unfold up; split <;> rfl
      rw [this]; exact up_right _ _
  exact T_app (key ps a ha hk (up_left _ _)) h

theorem T_ite {a e : St} {c : Prop} [Decidable c] {ps ps' qs : List Prog} (h : T a (ps ++ qs) e) (h' : T a (ps' ++ qs) e) :
    T a ((if c then ps else ps') ++ qs) e := by split <;> assumption

theorem T_ite1 {a e : St} {c : Prop} [Decidable c] {p p' : Prog} {qs : List Prog} (h : T a (p :: qs) e) (h' : T a (p' :: qs) e) :
    T a ((if c then p else p') :: qs) e := by split <;> assumption

/-- The separator leads to no bad state. -/
def SepOk (e : St) (x : Ins) : Prop := T e x.progs .G

instance (e : St) (x : Ins) : Decidable (SepOk e x) := inferInstanceAs (Decidable (T e x.progs .G))

theorem T_interParts {e : St} {x : Ins} (hx : SepOk e x) : ∀ {ps : List Prog} {a : St}, a ≠ .bad → Kids e ps → ps ≠ [] →
    T a (Prog.intersperseParts x ps) e
  | [], a, _, _, h => absurd rfl h
  | [p], a, ha, hk, _ => by
    rw [Prog.intersperseParts]
    exact T_kid (hk p (by simp)) ha (St.le_refl _)
  | p :: q :: ps, a, ha, hk, _ => by
    rw [Prog.intersperseParts]
    · refine T_kid (hk p (by simp)) ha (T_app hx ?_)
      exact T_interParts hx (by decide) (fun r hr => hk r (by simp [List.mem_cons.1 hr])) (by simp)
    · simp

theorem T_inter {a b e : St} {x : Ins} {ps qs : List Prog} (hk : Kids b ps) (ha : a ≠ .bad) (hx : SepOk b x)
    (h : T (up (fl a) b) qs e) : T a (Prog.intersperse ps x :: qs) e := by
  cases ps with
  | nil => exact T_txt ha rfl (T_start (up_left _ _) h)
  | cons p ps =>
    exact T_concat (T_app (T_interParts hx ha hk (by simp)) (T_start (up_right _ _) h))

theorem T_inter1 {a b e : St} {x : Ins} {p : Prog} {ps qs : List Prog} (hk : Kids b (p :: ps)) (ha : a ≠ .bad) (hx : SepOk b x)
    (h : T b qs e) : T a (Prog.intersperse (p :: ps) x :: qs) e :=
  T_concat (T_app (T_interParts hx ha hk (by simp)) h)

theorem T_interNe {a b e : St} {x : Ins} {ps qs : List Prog} (hk : Kids b ps) (hne : ps ≠ []) (ha : a ≠ .bad) (hx : SepOk b x)
    (h : T b qs e) : T a (Prog.intersperse ps x :: qs) e := by
  cases ps with
  | nil => exact absurd rfl hne
  | cons p ps => exact T_inter1 hk ha hx h

/-- `surround` with visible opening and closing texts. -/
theorem T_surround {a b e : St} {x : Ins} {o c : Str} {so pc : Option Prog} {ps qs : List Prog} (hk : Kids b ps)
    (ha : a ≠ .bad) (hx : SepOk b x) (ho : clean o = true) (hoi : ink o ≠ []) (hc : clean c = true) (hci : ink c ≠ [])
    (h1 : T .I ((Prog.opt so).map .indent) .G) (h2 : T b (Prog.opt pc) .G)
    (h : T .I qs e) :
    T a (Prog.surround ps x ⟨none, some o, so⟩ ⟨pc, some c, none⟩ :: qs) e := by
  cases ps with
  | nil =>
    rw [Prog.surround]
    refine T_concat (T_ink ha ho hoi (T_ink (by decide) hc hci h))
  | cons p ps =>
    rw [Prog.surround]
    · refine T_concat ?_
      simp only [Prog.opt, Prog.optT, List.nil_append, List.append_nil, List.append_assoc, List.cons_append]
      refine T_ink ha ho hoi (T_app h1 (T_indent (T_inter1 hk (by decide) hx (T_app h2 (T_ink (by decide) hc hci h)))))
    · simp

/-! ### Bodies -/

/-- Members. -/
def Mems (e : St) (ms : List (Bool × Prog)) : Prop := ∀ m ∈ ms, Kid e m.2

theorem T_bodyParts {b : St} (hb : b ≤ .P) : ∀ {ms : List (Bool × Prog)} {a : St}, a ≠ .bad → Mems b ms → ms ≠ [] →
    T a (Prog.bodyParts ms) b
  | [], a, _, _, h => absurd rfl h
  | [(t, p)], a, ha, hk, _ => by
    rw [Prog.bodyParts]
    exact T_kid (hk (t, p) (by simp)) ha (St.le_refl _)
  | (tr, p) :: q :: ms, a, ha, hk, _ => by
    rw [Prog.bodyParts]
    · refine T_kid (hk (tr, p) (by simp)) ha (T_sep ?_)
      have h1 : sp b = .S := by cases b <;> first | rfl | exact absurd hb (by decide)
      rw [h1]
      exact T_bodyParts hb (by decide) (fun r hr => hk r (by simp [List.mem_cons.1 hr])) (by simp)
    · simp

theorem T_interBody {a b e : St} {ms : List (Bool × Prog)} {qs : List Prog} (hk : Mems b ms) (ha : a ≠ .bad) (hb : b ≤ .P)
    (h : T (up (fl a) b) qs e) : T a (Prog.intersperseBody ms :: qs) e := by
  cases ms with
  | nil => exact T_txt ha rfl (T_start (up_left _ _) h)
  | cons m ms =>
    exact T_concat (T_app (T_bodyParts hb ha hk (by simp)) (T_start (up_right _ _) h))

theorem T_surroundBody {a b e : St} {ms : List (Bool × Prog)} {qs : List Prog} (hk : Mems b ms) (ha : a ≠ .bad) (hb : b ≤ .P)
    (h : T .I qs e) : T a (Prog.surroundBody ms :: qs) e := by
  cases ms with
  | nil =>
    exact T_concat (T_ink ha (by decide) (by decide) (T_nl (T_ink (by decide) (by decide) (by decide) h)))
  | cons m ms =>
    rw [Prog.surroundBody]
    · refine T_concat (T_ink ha (by decide) (by decide) (T_indent (T_nl (T_indent ?_))))
      rw [Prog.intersperseBody]
      · refine T_concat (T_app (T_bodyParts hb (by decide) hk (by simp)) (T_nl (T_ink ?_ (by decide) (by decide) h)))
        revert hb; cases b <;> decide
      · simp
    · simp

/-! ### Texts of the tree -/

/-- No blank at the start and at the end. -/
def Edge (s : Str) : Prop := (∀ c, s.head? = some c → isBlank c = false) ∧ ∀ c, s.getLast? = some c → isBlank c = false

theorem cleanL_solid {c : Char} {s : Str} (h : isBlank c = false) : cleanL (c :: s) = true := by
  have h1 : c ≠ '\n' := by rintro rfl; exact absurd h (by decide)
  have h2 : c ≠ ' ' := by rintro rfl; exact absurd h (by decide)
  simp [cleanL, h1, h2]

theorem cleanL_edge {s r : Str} (h : ∀ c, s.head? = some c → isBlank c = false) (hr : s = [] → cleanL r = true) :
    cleanL (s ++ r) = true := by
  cases s with
  | nil => exact hr rfl
  | cons c s => exact cleanL_solid (h c rfl)

/-- A trimmed text between texts without newlines. -/
theorem clean_edge {s : Str} (h : Edge s) (a b : Str) (ha : a.all (· == ' ') = true) (hb : b.all (· == ' ') = true) :
    clean (a ++ (s ++ b)) = true := by
  have hs : ∀ {a r : Str}, a.all (· == ' ') = true → cleanL r = true → cleanL (a ++ r) = true := by
    intro a r ha hr
    induction a with
    | nil => exact hr
    | cons c a ih =>
      simp only [List.all_cons, Bool.and_eq_true, beq_iff_eq] at ha
      obtain ⟨rfl, ha⟩ := ha
      simpa [cleanL] using ih ha
  have hn : ∀ {a : Str}, a.all (· == ' ') = true → cleanL a = true := fun {a} h => by
    have := hs (r := []) h rfl
    rwa [List.append_nil] at this
  unfold clean cleanR
  rw [Bool.and_eq_true]
  constructor
  · exact hs ha (cleanL_edge h.1 (fun _ => hn hb))
  · rw [List.reverse_append, List.reverse_append, List.append_assoc]
    refine hs (by rwa [List.all_reverse]) (cleanL_edge ?_ (fun _ => hn (by rwa [List.all_reverse])))
    intro c hc
    rw [List.head?_reverse] at hc
    exact h.2 c hc

theorem clean_plain {s : Str} (h : Edge s) : clean s = true := by
  have := clean_edge h [] [] rfl rfl
  simpa using this

theorem T_val {a e : St} {s : Str} {qs : List Prog} (h : Edge s) (ha : a ≠ .bad) (hq : T (fl a) qs e) :
    T a (.txt s :: qs) e := T_txt ha (clean_plain h) hq
theorem T_txtR {a e : St} {s : Str} {qs : List Prog} (h : Edge s) (ha : a ≠ .bad) (hq : T (fl a) qs e) :
    T a (Prog.txtR s :: qs) e := T_txt ha (clean_edge h [] [' '] rfl rfl) hq
theorem T_txtLR {a e : St} {s : Str} {qs : List Prog} (h : Edge s) (ha : a ≠ .bad) (hq : T (fl a) qs e) :
    T a (Prog.txtLR s :: qs) e := T_txt ha (clean_edge h [' '] [' '] rfl rfl) hq

theorem T_t {a e : St} {s : String} {qs : List Prog} (ha : a ≠ .bad) (hc : clean s.toList = true) (hi : ink s.toList ≠ [])
    (h : T .I qs e) : T a (Prog.t s :: qs) e := T_ink ha hc hi h
theorem T_tb {a e : St} {s : String} {qs : List Prog} (ha : a ≠ .bad) (hc : clean s.toList = true)
    (h : T (fl a) qs e) : T a (Prog.t s :: qs) e := T_txt ha hc h
theorem T_tL {a e : St} {s : String} {qs : List Prog} (ha : a ≠ .bad) (hc : clean (' ' :: s.toList) = true)
    (hi : ink (' ' :: s.toList) ≠ []) (h : T .I qs e) : T a (Prog.tL s :: qs) e := T_ink ha hc hi h
theorem T_tR {a e : St} {s : String} {qs : List Prog} (ha : a ≠ .bad) (hc : clean (s.toList ++ [' ']) = true)
    (hi : ink (s.toList ++ [' ']) ≠ []) (h : T .I qs e) : T a (Prog.tR s :: qs) e := T_ink ha hc hi h
theorem T_tLR {a e : St} {s : String} {qs : List Prog} (ha : a ≠ .bad) (hc : clean (' ' :: (s.toList ++ [' '])) = true)
    (hi : ink (' ' :: (s.toList ++ [' '])) ≠ []) (h : T .I qs e) : T a (Prog.tLR s :: qs) e := T_ink ha hc hi h

/-! ### Wrappers -/

theorem T_bwcp {a e : St} {n : Loc} {ps qs : List Prog} {b : St} (hb : b ≠ .bad) (h : T a ps b) (h' : T b qs e) :
    T a (Prog.New.bwcp n ps :: qs) e := by
  refine T_concat ?_
  simp only [List.cons_append, List.nil_append, List.append_assoc]
  exact T_pre (T_ifDangling (T_concat (T_app h (T_ifDangling (T_post (T_punctOpt hb h'))))))

theorem T_bwc {a e : St} {n : Loc} {ps qs : List Prog} (h : T a (ps ++ qs) e) : T a (Prog.New.bwc n ps :: qs) e := by
  refine T_concat ?_
  simp only [List.cons_append, List.nil_append]
  refine T_pre (T_ifDangling (T_concat ?_))
  rw [List.append_assoc]
  unfold T at *
  rw [symss_append] at h ⊢
  rw [List.cons_append, symss, syms]
  exact h

theorem T_paren {a b e : St} {ps qs : List Prog} (hk : Kids b ps) (ha : a ≠ .bad) (hb : b ≤ .F) (h : T .I qs e) :
    T a (Prog.New.parenList ps :: qs) e := by
  have hs : SepOk b (.after .softline) := by
    cases b <;> first | (exact absurd hb (by decide)) | decide
  have h2 : T b (Prog.opt (some .maybeline)) .G := by
    cases b <;> first | (exact absurd hb (by decide)) | decide
  refine T_group (T_surround hk ?_ hs (by decide) (by decide) (by decide) (by decide) (by decide) h2 h)
  revert ha; cases a <;> decide

/-! ### Lists of kids -/

theorem Kids_nil {e : St} : Kids e [] := fun _ h => absurd h (by simp)
theorem Kids_cons {e : St} {p : Prog} {ps : List Prog} (h : Kid e p) (h' : Kids e ps) : Kids e (p :: ps) := by
  intro q hq
  rcases List.mem_cons.1 hq with rfl | hq
  · exact h
  · exact h' q hq
theorem Kids_append {e : St} {ps qs : List Prog} (h : Kids e ps) (h' : Kids e qs) : Kids e (ps ++ qs) := by
  intro q hq
  rcases List.mem_append.1 hq with hq | hq
  · exact h q hq
  · exact h' q hq
theorem Kids_opt {e : St} {o : Option Prog} (h : OptK e o) : Kids e (Prog.opt o) := by
  cases o with
  | none => exact Kids_nil
  | some p => exact Kids_cons (h p rfl) Kids_nil
theorem Kids_ite {e : St} {c : Prop} [Decidable c] {ps qs : List Prog} (h : Kids e ps) (h' : Kids e qs) :
    Kids e (if c then ps else qs) := by split <;> assumption

theorem Kid_le {e e' : St} {p : Prog} (h : Kid e p) (h' : e ≤ e') : Kid e' p := T_end h h'

/-! ### Results -/

/-- If the result is a success, it satisfies `Q`. -/
def P {α : Type} (r : R α) (Q : α → Prop) : Prop := ∀ a, r = .ok a → Q a

theorem P_bind {α β : Type} {r : R α} {f : α → R β} {Q : α → Prop} {Q' : β → Prop} (h : P r Q)
    (h' : ∀ a, r = .ok a → Q a → P (f a) Q') : P (r >>= f) Q' := by
  intro b hb
  cases hr : r with
  | error e => rw [hr] at hb; cases hb
  | ok a => rw [hr] at hb; exact h' a hr (h a hr) b hb

theorem P_ok {α : Type} {a : α} {Q : α → Prop} (h : Q a) : P (.ok a) Q := by
  intro b hb; cases hb; exact h
theorem P_pure {α : Type} {a : α} {Q : α → Prop} (h : Q a) : P (pure a : R α) Q := P_ok h
theorem P_err {α : Type} {e : Panic} {Q : α → Prop} : P (.error e : R α) Q := by
  intro b hb; cases hb
theorem P_any {α : Type} {r : R α} : P r (fun _ => True) := fun _ _ => trivial
theorem P_mono {α : Type} {r : R α} {Q Q' : α → Prop} (h : P r Q) (h' : ∀ a, Q a → Q' a) : P r Q' :=
  fun a ha => h' a (h a ha)

theorem P_opt {α : Type} {e : St} {o : Option α} {f : α → R Prog} (h : ∀ x, o = some x → P (f x) (Kid e)) :
    P (optR o f) (OptK e) := by
  intro r hr p hp
  subst hp
  cases o with
  | none => cases hr
  | some x =>
    simp only [optR] at hr
    split at hr
    · rename_i b hb
      cases hr
      exact h x rfl _ hb
    · cases hr

theorem P_map {α : Type} {e : St} {f : α → R Prog} : ∀ {xs : List α}, (∀ x ∈ xs, P (f x) (Kid e)) → P (mapR f xs) (Kids e)
  | [], _ => by intro r hr; cases hr; exact Kids_nil
  | x :: xs, h => by
    intro r hr
    rw [mapR] at hr
    split at hr
    · cases hr
    · rename_i b hb
      split at hr
      · cases hr
      · rename_i bs hbs
        cases hr
        exact Kids_cons (h x (by simp) _ hb) (P_map (fun y hy => h y (by simp [hy])) _ hbs)

theorem P_mapM {α : Type} {e : St} {f : α → R (Bool × Prog)} : ∀ {xs : List α}, (∀ x ∈ xs, P (f x) (fun m => Kid e m.2)) →
    P (mapR f xs) (Mems e)
  | [], _ => by intro r hr; cases hr; intro m hm; cases hm
  | x :: xs, h => by
    intro r hr
    rw [mapR] at hr
    split at hr
    · cases hr
    · rename_i b hb
      split at hr
      · cases hr
      · rename_i bs hbs
        cases hr
        intro m hm
        rcases List.mem_cons.1 hm with rfl | hm
        · exact h x (by simp) _ hb
        · exact P_mapM (fun y hy => h y (by simp [hy])) _ hbs m hm

/-- The state in which the programs of a class end. -/
def endOf : Cls → St
  | .annotation => .P
  | .modifiers => .P
  | _ => .I

/-- A text that prints something and has no blanks at its ends. -/
def Tidy (s : Str) : Prop := Edge s ∧ ink s ≠ []

/-- All locations lie in the tree. -/
def InL (root : Node) (xs : List Loc) : Prop := ∀ l ∈ xs, In root l
/-- An optional location lies in the tree. -/
def InO (root : Node) (o : Option Loc) : Prop := ∀ l, o = some l → In root l

/-- Kinds of nodes with at least one child. -/
def fullKinds : List String := ["type_list", "and_expression", "or_expression", "select_clause", "selected_fields"]

/-- The classes whose programs always print something and that other constructors call. -/
def callable : Cls → Bool
  | .annotationArgumentList => false
  | .root => false
  | _ => true

/-- A tree with trimmed texts and without empty lists. -/
structure TidyTree (root : Node) : Prop where
  text : ∀ l, In root l → Tidy l.value
  kind : ∀ l, In root l → Tidy l.kind.toList
  full : ∀ l, In root l → fullKinds.contains l.kind = true → l.childrenVec ≠ []
  mods : ∀ l, In root l → l.kind = "modifiers" → l.tryCsByK "annotation" ≠ [] ∨ l.tryCsByK "modifier" ≠ []

/-- The setting: a tree with trimmed texts, and constructors whose programs behave. -/
structure Env (root : Node) (rec : Rec) : Prop extends TidyTree root where
  call : ∀ c l, In root l → callable c = true → P (rec c l) (Kid (endOf c))
  args : ∀ l, In root l → P (rec .annotationArgumentList l) (fun p => T .I [p] .I)

section
variable {root : Node} {rec : Rec}

theorem Env.textT (E : Env root rec) (l : Loc) (hl : In root l) : Tidy l.value := E.text l hl
theorem Env.kindT (E : Env root rec) (l : Loc) (hl : In root l) : Tidy l.kind.toList := E.kind l hl
theorem Env.recP (E : Env root rec) (c : Cls) (l : Loc) (hl : In root l) (hc : callable c = true) :
    P (rec c l) (Kid (endOf c)) := E.call c l hl hc

theorem Env.optP (E : Env root rec) {c : Cls} {o : Option Loc} (h : InO root o) (hc : callable c = true) :
    P (optR o (rec c)) (OptK (endOf c)) := P_opt (fun x hx => E.call c x (h x hx) hc)

theorem Env.mapP (E : Env root rec) {c : Cls} {xs : List Loc} (h : InL root xs) (hc : callable c = true) :
    P (mapR (rec c) xs) (Kids (endOf c)) := P_map (fun x hx => E.call c x (h x hx) hc)

theorem Env.member (E : Env root rec) {cfg : Cfg} {c : Cls} {l : Loc} (hl : In root l) (hc : callable c = true) :
    P (Prog.New.bodyMember cfg rec c l) (fun m => Kid (endOf c) m.2) := by
  intro m hm
  unfold Prog.New.bodyMember at hm
  split at hm
  · cases hm
  · rename_i p hp
    split at hm
    · cases hm
    · cases hm; exact E.call c l hl hc p hp

theorem Env.members (E : Env root rec) {cfg : Cfg} {c : Cls} {xs : List Loc} (h : InL root xs) (hc : callable c = true) :
    P (mapR (Prog.New.bodyMember cfg rec c) xs) (Mems (endOf c)) := P_mapM (fun x hx => E.member (h x hx) hc)

theorem Env.dispatch (E : Env root rec) {tbl : List (String × Cls)} {l : Loc} {e : St} (hl : In root l)
    (h : tbl.all (fun x => decide (endOf x.2 ≤ e) && callable x.2) = true) :
    P (Prog.New.dispatch rec tbl l) (Kid e) := by
  intro p hp
  unfold Prog.New.dispatch at hp
  split at hp
  · rename_i x hx
    have := List.all_eq_true.1 h x (List.mem_of_find?_eq_some hx)
    rw [Bool.and_eq_true, decide_eq_true_eq] at this
    exact Kid_le (E.call _ _ hl this.2 p hp) this.1
  · cases hp

theorem Env.dispatchs (E : Env root rec) {tbl : List (String × Cls)} {xs : List Loc} {e : St} (hl : InL root xs)
    (h : tbl.all (fun x => decide (endOf x.2 ≤ e) && callable x.2) = true) :
    P (mapR (Prog.New.dispatch rec tbl) xs) (Kids e) := P_map (fun x hx => E.dispatch (hl x hx) h)

theorem Env.cByK (_ : Env root rec) {n : Loc} (hn : In root n) {k : String} : P (n.cByK k) (In root) := fun _ h => in_cByK hn h
theorem Env.cByN (_ : Env root rec) {n : Loc} (hn : In root n) {k : String} : P (n.cByN k) (In root) := fun _ h => in_cByN hn h
theorem Env.firstC (_ : Env root rec) {n : Loc} (hn : In root n) : P n.firstC (In root) := fun _ h => in_firstC hn h
theorem Env.csByK (_ : Env root rec) {n : Loc} (hn : In root n) {k : String} : P (n.csByK k) (fun cs => InL root cs ∧ cs ≠ []) := by
  refine fun _ h => ⟨fun _ hc => in_csByK hn h hc, ?_⟩
  rintro rfl
  unfold Loc.csByK at h
  split at h <;> simp_all
theorem Env.csByN (_ : Env root rec) {n : Loc} (hn : In root n) {k : String} : P (n.csByN k) (fun cs => InL root cs ∧ cs ≠ []) := by
  refine fun _ h => ⟨fun _ hc => in_csByN hn h hc, ?_⟩
  rintro rfl
  unfold Loc.csByN at h
  split at h
  · cases h
  · rename_i hne
    simp only [Except.ok.injEq] at h
    exact hne (by rw [h])
theorem Env.nextNamed (_ : Env root rec) {n : Loc} (hn : In root n) : P n.nextNamed (In root) := fun _ h => in_nextNamed hn h
theorem Env.check (_ : Env root rec) {n : Loc} {k : String} : P (assertCheck n k) (fun _ => n.kind = k) := by
  intro _ h
  unfold assertCheck at h
  split at h
  · rename_i hk; exact eq_of_beq hk
  · cases h

theorem Env.valueN (E : Env root rec) {n : Loc} (hn : In root n) {k : String} : P (n.cvalueByN k) Tidy := by
  intro s hs
  unfold Loc.cvalueByN at hs
  split at hs
  · rename_i c hc; cases hs; exact E.text c (in_tryCByN hn hc)
  · cases hs
theorem Env.valueK (E : Env root rec) {n : Loc} (hn : In root n) {k : String} : P (n.cvalueByK k) Tidy := by
  intro s hs
  unfold Loc.cvalueByK at hs
  split at hs
  · rename_i c hc; cases hs; exact E.text c (in_tryCByK hn hc)
  · cases hs
theorem InL_vec {n : Loc} (hn : In root n) : InL root n.childrenVec := fun _ h => in_vec hn h
theorem InL_named {n : Loc} (hn : In root n) : InL root n.namedChildren := fun _ h => in_named hn h
theorem InL_try {n : Loc} {k : String} (hn : In root n) : InL root (n.tryCsByK k) := fun _ h => in_tryCsByK hn h
theorem InL_filter {xs : List Loc} {p : Loc → Bool} (h : InL root xs) : InL root (xs.filter p) := fun l hl => h l (List.mem_filter.1 hl).1
theorem InL_drop {xs : List Loc} {k : Nat} (h : InL root xs) : InL root (xs.drop k) := fun l hl => h l (List.mem_of_mem_drop hl)
theorem InL_tail {x : Loc} {xs : List Loc} (h : InL root (x :: xs)) : InL root xs := fun l hl => h l (.tail _ hl)
theorem InL_head {x : Loc} {xs : List Loc} (h : InL root (x :: xs)) : In root x := h x (.head _)
theorem InL_last {x : Loc} {xs : List Loc} (h : InL root xs) (hx : xs.getLast? = some x) : In root x :=
  h x (List.mem_of_getLast? hx)
theorem InO_K {n : Loc} {k : String} (hn : In root n) : InO root (n.tryCByK k) := fun _ h => in_tryCByK hn h
theorem InO_N {n : Loc} {k : String} (hn : In root n) : InO root (n.tryCByN k) := fun _ h => in_tryCByN hn h
theorem InO_first {n : Loc} (hn : In root n) : InO root n.tryFirstC := fun _ h => in_tryFirstC hn h
theorem mapR_ne {β : Type} {f : Loc → R β} {xs : List Loc} {ys : List β} (h : mapR f xs = .ok ys) (hx : xs ≠ []) : ys ≠ [] := by
  rintro rfl
  cases xs with
  | nil => exact hx rfl
  | cons x xs =>
    rw [mapR] at h
    split at h
    · cases h
    · split at h <;> cases h
end

/-! ### Tactics -/

theorem T_surroundI {a e : St} {x : Ins} {o c : Str} {so pc : Option Prog} {ps qs : List Prog} (ha : a ≠ .bad)
    (hk : Kids .I ps) (hx : SepOk .I x) (h1 : T .I ((Prog.opt so).map .indent) .G) (h2 : T .I (Prog.opt pc) .G)
    (ho : (clean o = true ∧ ink o ≠ []) ∧ clean c = true ∧ ink c ≠ []) (h : T .I qs e) :
    T a (Prog.surround ps x ⟨none, some o, so⟩ ⟨pc, some c, none⟩ :: qs) e :=
  T_surround hk ha hx ho.1.1 ho.1.2 ho.2.1 ho.2.2 h1 h2 h

theorem T_tI {a e : St} {s : String} {qs : List Prog} (ha : a ≠ .bad) (hc : clean s.toList = true ∧ ink s.toList ≠ [])
    (h : T .I qs e) : T a (Prog.t s :: qs) e := T_ink ha hc.1 hc.2 h
theorem T_tLI {a e : St} {s : String} {qs : List Prog} (ha : a ≠ .bad)
    (hc : clean (' ' :: s.toList) = true ∧ ink (' ' :: s.toList) ≠ []) (h : T .I qs e) : T a (Prog.tL s :: qs) e :=
  T_ink ha hc.1 hc.2 h
theorem T_tRI {a e : St} {s : String} {qs : List Prog} (ha : a ≠ .bad)
    (hc : clean (s.toList ++ [' ']) = true ∧ ink (s.toList ++ [' ']) ≠ []) (h : T .I qs e) : T a (Prog.tR s :: qs) e :=
  T_ink ha hc.1 hc.2 h
theorem T_tLRI {a e : St} {s : String} {qs : List Prog} (ha : a ≠ .bad)
    (hc : clean (' ' :: (s.toList ++ [' '])) = true ∧ ink (' ' :: (s.toList ++ [' '])) ≠ []) (h : T .I qs e) :
    T a (Prog.tLR s :: qs) e := T_ink ha hc.1 hc.2 h
theorem T_nilp {a e : St} {qs : List Prog} (ha : a ≠ .bad) (h : T (fl a) qs e) : T a (Prog.nil :: qs) e := T_txt ha rfl h
theorem Kid_of {e : St} {p : Prog} (h : T .G [p] e) : Kid e p := h
theorem T_kidI {a e : St} {p : Prog} {qs : List Prog} (hk : Kid .I p) (ha : a ≠ .bad) (h : T .I qs e) : T a (p :: qs) e :=
  T_kid hk ha h
theorem T_kidP {a e : St} {p : Prog} {qs : List Prog} (hk : Kid .P p) (ha : a ≠ .bad) (h : T .P qs e) : T a (p :: qs) e :=
  T_kid hk ha h
theorem T_sAfter {a e : St} {x : Ins} {o c : String} {so pc : Prog} {ps qs : List Prog} (ha : a ≠ .bad)
    (hk : Kids .I ps) (hx : SepOk .I x) (h1 : T .I [.indent so] .G) (h2 : T .I [pc] .G)
    (ho : (clean o.toList = true ∧ ink o.toList ≠ []) ∧ clean c.toList = true ∧ ink c.toList ≠ []) (h : T .I qs e) :
    T a (Prog.surround ps x (.sAfter o so) (.before pc c) :: qs) e := T_surroundI ha hk hx h1 h2 ho h
theorem T_sAfter' {a e : St} {x : Ins} {o c : String} {so : Prog} {ps qs : List Prog} (ha : a ≠ .bad)
    (hk : Kids .I ps) (hx : SepOk .I x) (h1 : T .I [.indent so] .G)
    (ho : (clean o.toList = true ∧ ink o.toList ≠ []) ∧ clean c.toList = true ∧ ink c.toList ≠ []) (h : T .I qs e) :
    T a (Prog.surround ps x (.sAfter o so) (.s c) :: qs) e := T_surroundI ha hk hx h1 (by decide) ho h
theorem T_sPlain {a e : St} {x : Ins} {o c : String} {ps qs : List Prog} (ha : a ≠ .bad)
    (hk : Kids .I ps) (hx : SepOk .I x)
    (ho : (clean o.toList = true ∧ ink o.toList ≠ []) ∧ clean c.toList = true ∧ ink c.toList ≠ []) (h : T .I qs e) :
    T a (Prog.surround ps x (.s o) (.s c) :: qs) e := T_surroundI ha hk hx (by decide) (by decide) ho h
theorem T_parenI {a e : St} {ps qs : List Prog} (hk : Kids .I ps) (ha : a ≠ .bad) (h : T .I qs e) :
    T a (Prog.New.parenList ps :: qs) e := T_paren hk ha (by decide) h
theorem T_interI {a e : St} {x : Ins} {ps qs : List Prog} (hk : Kids .I ps) (ha : a ≠ .bad) (hx : SepOk .I x)
    (h : T (fl a) qs e) : T a (Prog.intersperse ps x :: qs) e := by
  refine T_inter hk ha hx ?_
  have : up (fl a) .I = fl a := by cases a <;> rfl
  rwa [this]
theorem T_inter1I {a e : St} {x : Ins} {p : Prog} {ps qs : List Prog} (hk : Kids .I (p :: ps)) (ha : a ≠ .bad) (hx : SepOk .I x)
    (h : T .I qs e) : T a (Prog.intersperse (p :: ps) x :: qs) e := T_inter1 hk ha hx h
theorem T_inter2I {a e : St} {x : Ins} {p : Prog} {ps ps' qs : List Prog} (hk : Kids .I ((p :: ps) ++ ps')) (ha : a ≠ .bad)
    (hx : SepOk .I x) (h : T .I qs e) : T a (Prog.intersperse ((p :: ps) ++ ps') x :: qs) e := T_inter1 hk ha hx h
theorem T_bwcpI {a e : St} {n : Loc} {ps qs : List Prog} (h : T a ps .I) (h' : T .I qs e) :
    T a (Prog.New.bwcp n ps :: qs) e := T_bwcp (by decide) h h'
theorem T_bwcpP {a e : St} {n : Loc} {ps qs : List Prog} (h : T a ps .P) (h' : T .P qs e) :
    T a (Prog.New.bwcp n ps :: qs) e := T_bwcp (by decide) h h'
theorem T_optI {a e : St} {o : Option Prog} {qs : List Prog} (hk : OptK .I o) (ha : a ≠ .bad) (h : T a qs e) :
    T a (Prog.opt o ++ qs) e := by
  refine T_opt hk ha ?_
  have : up a .I = a := by cases a <;> rfl
  rwa [this]
theorem T_optL {a e : St} {o : Option Prog} (hk : OptK .I o) (ha : a ≠ .bad) (h : T a [] e) :
    T a (Prog.opt o) e := by
  rw [← List.append_nil (Prog.opt o)]; exact T_optI hk ha h
theorem T_kidsI {a e : St} {ps qs : List Prog} (hk : Kids .I ps) (ha : a ≠ .bad) (h : T a qs e) : T a (ps ++ qs) e := by
  refine T_kids hk ha (by decide) ?_
  have : up a .I = a := by cases a <;> rfl
  rwa [this]
theorem T_iteL {a e : St} {c : Prop} [Decidable c] {ps ps' : List Prog} (h : T a ps e) (h' : T a ps' e) :
    T a (if c then ps else ps') e := by split <;> assumption
theorem T_surroundBodyI {a e : St} {ms : List (Bool × Prog)} {qs : List Prog} (hk : Mems .I ms) (ha : a ≠ .bad)
    (h : T .I qs e) : T a (Prog.surroundBody ms :: qs) e := T_surroundBody hk ha (by decide) h
theorem T_optP {a e : St} {o : Option Prog} {qs : List Prog} (hk : OptK .P o) (ha : a ≠ .bad) (hp : .P ≤ a) (h : T a qs e) :
    T a (Prog.opt o ++ qs) e := by
  refine T_opt hk ha ?_
  have : up a .P = a := by cases a <;> first | rfl | exact absurd hp (by decide)
  rwa [this]
theorem OptK_get {e : St} {p : Prog} (h : OptK e (some p)) : Kid e p := h p rfl
theorem T_kindt {a e : St} {k : String} {qs : List Prog} (h : Tidy k.toList) (ha : a ≠ .bad) (hq : T .I qs e) :
    T a (Prog.t k :: qs) e := T_ink ha (clean_plain h.1) h.2 hq
theorem ink_edge {s : Str} (a b : Str) (h : ink s ≠ []) : ink (a ++ (s ++ b)) ≠ [] := by
  rw [ink, List.filter_append, List.filter_append]
  intro h'
  simp only [List.append_eq_nil_iff] at h'
  exact h h'.2.1
theorem T_valI {a e : St} {s : Str} {qs : List Prog} (h : Tidy s) (ha : a ≠ .bad) (hq : T .I qs e) :
    T a (.txt s :: qs) e := T_ink ha (clean_plain h.1) h.2 hq
theorem T_txtRI {a e : St} {s : Str} {qs : List Prog} (h : Tidy s) (ha : a ≠ .bad) (hq : T .I qs e) :
    T a (Prog.txtR s :: qs) e := T_ink ha (clean_edge h.1 [] [' '] rfl rfl) (ink_edge [] [' '] h.2) hq
theorem T_txtLRI {a e : St} {s : Str} {qs : List Prog} (h : Tidy s) (ha : a ≠ .bad) (hq : T .I qs e) :
    T a (Prog.txtLR s :: qs) e := T_ink ha (clean_edge h.1 [' '] [' '] rfl rfl) (ink_edge [' '] [' '] h.2) hq
theorem T_interMap {f : Loc → R Prog} {xs : List Loc} {a e : St} {x : Ins} {ps qs : List Prog}
    (hm : mapR f xs = .ok ps) (hne : xs ≠ []) (hk : Kids .I ps) (ha : a ≠ .bad)
    (hx : SepOk .I x) (h : T .I qs e) : T a (Prog.intersperse ps x :: qs) e :=
  T_interNe hk (mapR_ne hm hne) ha hx h
theorem T_interVec {root : Node} {rec : Rec} {n : Loc} {k : String} (E : Env root rec) (hn : In root n) {f : Loc → R Prog} {a e : St}
    {x : Ins} {ps qs : List Prog} (hm : mapR f n.childrenVec = .ok ps) (hkd : n.kind = k) (hf : fullKinds.contains k = true) (hk : Kids .I ps)
    (ha : a ≠ .bad) (hx : SepOk .I x) (h : T .I qs e) : T a (Prog.intersperse ps x :: qs) e :=
  T_interNe hk (mapR_ne hm (E.full n hn (hkd ▸ hf))) ha hx h
theorem T_bracketBody {a e : St} {n : Loc} {ms : List (Bool × Prog)} {qs : List Prog} (hk : Mems .I ms) (ha : a ≠ .bad)
    (h : T .I qs e) : T a (Prog.New.bracketBody n ms :: qs) e :=
  T_concat (T_pre (T_ifDangling (T_concat (T_surroundBodyI hk ha (T_post h)))))
theorem T_declarators {a e : St} {ps qs : List Prog} (hk : Kids .I ps) (ha : a = .I) (h : T .I qs e) :
    T a (Prog.New.declaratorsDoc ps :: qs) e := by
  subst ha
  unfold Prog.New.declaratorsDoc
  split
  · exact T_kid (hk _ (by simp)) (by decide) h
  · exact T_group (T_indent (T_interI hk (by decide) (by decide) h))
theorem T_chain {a e : St} {c : Option ChainingContext} {o : Prog} {link qs : List Prog} (ho : Kid .I o) (ha : a ≠ .bad)
    (hl : T .P link .I) (h : T .I qs e) : T a (Prog.New.chainDoc c o link :: qs) e := by
  have hl' : T .I link .I := T_start (by decide) hl
  have key : ∀ {a' : St} {b : Bool}, a' ≠ .bad → T a' (([o] ++ (if b then [Prog.maybeline] else []) ++ link) ++ qs) e := by
    intro a' b ha'
    rw [List.append_assoc, List.append_assoc]
    refine T_kid ho ha' ?_
    cases b
    · simpa using T_app hl' h
    · simpa using T_maybe (T_app (a := brk .I) hl h)
  unfold Prog.New.chainDoc
  cases c with
  | none => exact T_concat (T_kid ho ha (T_app hl' h))
  | some c =>
    dsimp only
    split
    · exact T_group (T_indent (T_concat (key (by revert ha; cases a <;> decide))))
    · exact T_concat (key ha)
theorem T_wcp {a e : St} {i : Nat} {p : Option Punc} {ps qs : List Prog} (h : T a ps .I) (h' : T .I qs e) :
    T a (Prog.withCommentsAndPunc i p ps :: qs) e := by
  refine T_concat ?_
  simp only [List.cons_append, List.nil_append, List.append_assoc]
  exact T_pre (T_ifDangling (T_concat (T_app h (T_ifDangling (T_post (T_punctOpt (by decide) h'))))))
theorem T_wcpa {a e : St} {i : Nat} {p : Option Punc} {ps qs : List Prog} (h : T a ps .I) (h' : T .I qs e) :
    T a (Prog.withCommentsAndPuncAttached i p ps :: qs) e := by
  refine T_concat ?_
  simp only [List.cons_append, List.nil_append, List.append_assoc]
  exact T_pre (T_ifDangling (T_concat (T_app h (T_punctOpt (by decide) (T_ifDangling (T_post h'))))))
theorem T_spaced {a e : St} {o : Option Prog} {qs : List Prog} (ho : OptK .I o) (ha : a = .I) (h : T .I qs e) :
    T a (Prog.New.spaced o ++ qs) e := by
  subst ha
  cases o with
  | none => exact h
  | some p => exact T_tb (by decide) (by decide) (T_kid (ho p rfl) (by decide) h)
theorem T_spacedL {a e : St} {o : Option Prog} (ho : OptK .I o) (ha : a = .I) (h : T .I [] e) :
    T a (Prog.New.spaced o) e := by
  rw [← List.append_nil (Prog.New.spaced o)]; exact T_spaced ho ha h
theorem T_interNeI {a e : St} {x : Ins} {ps qs : List Prog} (hne : ¬ ps.isEmpty = true) (hk : Kids .I ps) (ha : a ≠ .bad)
    (hx : SepOk .I x) (h : T .I qs e) : T a (Prog.intersperse ps x :: qs) e :=
  T_interNe hk (by rintro rfl; exact hne rfl) ha hx h
theorem T_annotated {a e : St} {ps : List Prog} {s : Str} (hk : Kids .P ps) (hs : Tidy s) (ha : a ≠ .bad) (h : St.I ≤ e) :
    T a (Prog.New.annotatedName ps s) e := by
  unfold Prog.New.annotatedName
  split
  · exact T_valI hs ha h
  · rename_i hne
    exact T_interNe hk (by rintro rfl; exact hne rfl) ha (by decide) (T_tb (by decide) (by decide) (T_valI hs (by decide) h))
theorem P_guard {α : Type} {r : R α} {Q : α → Prop} (h : P r Q) : P r Q := h
theorem T_guard {a e : St} {ps : List Prog} (h : T a ps e) : T a ps e := h
theorem Env.keyword {root : Node} {rec : Rec} (_ : Env root rec) {tbl : List (String × String)} {l : Loc}
    (h : tbl.all (fun x => decide (clean x.2.toList = true ∧ ink x.2.toList ≠ [])) = true) :
    P (Prog.New.keyword tbl l) (Kid .I) := by
  intro p hp
  unfold Prog.New.keyword at hp
  split at hp
  · rename_i x hx
    have := List.all_eq_true.1 h x (List.mem_of_find?_eq_some hx)
    rw [decide_eq_true_eq] at this
    cases hp
    exact Kid_of (T_tI (by decide) this (St.le_refl _))
  · cases hp
theorem T_interBodyI {a e : St} {ms : List (Bool × Prog)} {qs : List Prog} (hk : Mems .I ms) (ha : a ≠ .bad)
    (h : T (fl a) qs e) : T a (Prog.intersperseBody ms :: qs) e := by
  refine T_interBody hk ha (by decide) ?_
  have : up (fl a) .I = fl a := by cases a <;> rfl
  rwa [this]

theorem Edge_map {f : Char → Char} {s : Str} (hf : ∀ c, isBlank (f c) = isBlank c) (h : Edge s) : Edge (s.map f) := by
  constructor
  · intro c hc
    rw [List.head?_map, Option.map_eq_some_iff] at hc
    obtain ⟨d, hd, rfl⟩ := hc
    rw [hf]; exact h.1 d hd
  · intro c hc
    rw [List.getLast?_map, Option.map_eq_some_iff] at hc
    obtain ⟨d, hd, rfl⟩ := hc
    rw [hf]; exact h.2 d hd
theorem ink_map {f : Char → Char} {s : Str} (hf : ∀ c, isBlank (f c) = isBlank c) (h : ink s ≠ []) : ink (s.map f) ≠ [] := by
  intro h'
  apply h
  rw [ink, List.filter_eq_nil_iff] at h' ⊢
  intro c hc
  have := h' (f c) (List.mem_map_of_mem hc)
  rwa [hf] at this
theorem Tidy_lower {s : Str} (h : Tidy s) : Tidy (Prog.New.toLower s) := ⟨Edge_map Gram.blank_lower h.1, ink_map Gram.blank_lower h.2⟩
theorem Tidy_upper {s : Str} (h : Tidy s) : Tidy (Prog.New.toUpper s) := ⟨Edge_map Gram.blank_upper h.1, ink_map Gram.blank_upper h.2⟩
theorem Tidy_quote {s : Str} : Tidy ('\'' :: (s ++ ['\''])) := by
  refine ⟨⟨?_, ?_⟩, ?_⟩
  · intro c hc; cases hc; decide
  · intro c hc
    rw [show '\'' :: (s ++ ['\'']) = ('\'' :: s) ++ ['\''] from rfl, List.getLast?_concat] at hc
    cases hc; decide
  · simp [ink, isBlank]
theorem Tidy_colon {s r : Str} (h : Tidy s) (hr : Tidy r) : Tidy (s ++ ':' :: r) := by
  obtain ⟨⟨h1, _⟩, h2⟩ := h
  obtain ⟨⟨_, h3⟩, h4⟩ := hr
  cases s with
  | nil => exact absurd rfl h2
  | cons a s =>
    have hne : r ≠ [] := by rintro rfl; exact h4 rfl
    refine ⟨⟨fun c hc => h1 c hc, ?_⟩, ?_⟩
    · intro c hc
      have h5 : (a :: s ++ ':' :: r).getLast? = r.getLast? := by
        cases r with
        | nil => exact absurd rfl hne
        | cons b r => rw [List.getLast?_append, List.getLast?_cons_cons, List.getLast?_cons]; rfl
      rw [h5] at hc
      exact h3 c hc
    · exact ink_edge [] (':' :: r) h2

/-- A list of programs between inked texts. -/
def Seg (ps : List Prog) : Prop := T .I ps .I
theorem Seg_of {ps : List Prog} (h : T .I ps .I) : Seg ps := h
theorem T_seg {a e : St} {ps qs : List Prog} (h : Seg ps) (ha : a = .I) (h' : T .I qs e) : T a (ps ++ qs) e := by
  subst ha; exact T_app h h'
theorem T_segL {a e : St} {ps : List Prog} (h : Seg ps) (ha : a = .I) (he : St.I ≤ e) : T a ps e := by
  subst ha; exact T_end h he
theorem P_dml {n : Loc} : P (Prog.New.dmlTypeVariant n) (Kid .I) := by
  intro p hp
  unfold Prog.New.dmlTypeVariant at hp
  split at hp
  · rename_i h
    cases hp
    simp only [List.mem_cons, List.not_mem_nil, or_false] at h
    rcases h with h | h | h | h | h | h <;> (rw [h]; exact Kid_of (T_tI (by decide) (by decide) (St.le_refl _)))
  · cases hp
theorem Kid_last {e : St} {ps : List Prog} {p : Prog} (h : Kids e ps) (hp : ps.getLast? = some p) : Kid e p :=
  h p (List.mem_of_getLast? hp)

theorem Kids_head {e : St} {p : Prog} {ps : List Prog} (h : Kids e (p :: ps)) : Kid e p := h p (.head _)
theorem Kids_tail {e : St} {p : Prog} {ps : List Prog} (h : Kids e (p :: ps)) : Kids e ps := fun q hq => h q (.tail _ hq)
theorem Mems_nil {e : St} : Mems e [] := fun _ h => absurd h (by simp)
theorem P_get {α : Type} {r : R α} {Q : α → Prop} {a : α} (h : P r Q) (hr : r = .ok a) : Q a := h a hr
theorem P_of {α : Type} {r : R α} {Q : α → Prop} (h : ∀ a, r = .ok a → Q a) : P r Q := h
theorem T_interBodyNe {a e : St} {ms : List (Bool × Prog)} {qs : List Prog} (hk : Mems .I ms) (hne : ms ≠ []) (ha : a ≠ .bad)
    (h : T .I qs e) : T a (Prog.intersperseBody ms :: qs) e := by
  cases ms with
  | nil => exact absurd rfl hne
  | cons m ms => exact T_concat (T_app (T_bodyParts (by decide) ha hk (by simp)) h)

theorem T_run {a : St} {p : Prog} (h : T a [p] .P) : run a (syms p) ≠ .bad := by
  unfold T at h
  rw [symss, symss, List.append_nil] at h
  intro hb
  rw [hb] at h
  exact absurd h (by decide)

attribute [irreducible] T Seg Kid Kids OptK Mems Edge SepOk P Inky Tidy InL InO

/-- Hypotheses about kids, up to the end state of their class. -/
macro "kh" : tactic => `(tactic| with_reducible first
  | assumption
  | exact OptK_get ‹_›
  | (refine Kid_last ?_ ?_ <;> assumption))

/-- Locations of the tree. -/
macro "inn" : tactic => `(tactic| with_reducible first
  | assumption
  | (refine in_tryCByK ?_ (by assumption); assumption)
  | (refine in_tryCByN ?_ (by assumption); assumption)
  | (refine in_tryFirstC ?_ (by assumption); assumption)
  | (refine in_vec ?_ (by assumption); assumption)
  | (refine in_named ?_ (by assumption); assumption)
  | (refine in_parent ?_ (by assumption); assumption)
  | (refine InL_last ?_ (by assumption); assumption)
  | (refine InL_head ?_ <;> assumption))
/-- Lists of locations of the tree. -/
syntax "inls" : tactic
macro_rules
  | `(tactic| inls) => `(tactic| with_reducible first
    | assumption
    | (refine InL_vec ?_; inn)
    | (refine InL_named ?_; inn)
    | (refine InL_try ?_; inn)
    | (refine InL_filter ?_; inls)
    | (refine InL_drop ?_; inls)
    | (refine InL_tail ?_; assumption))
/-- Optional locations of the tree. -/
macro "ino" : tactic => `(tactic| with_reducible first
    | assumption
    | (refine InO_K ?_; inn)
    | (refine InO_N ?_; inn)
    | (refine InO_first ?_; inn))

/-- Texts of the tree. -/
macro "inl" : tactic => `(tactic| with_reducible first
  | assumption
  | (refine Env.textT ‹_› _ ?_; inn)
  | (refine Tidy_lower (Env.textT ‹_› _ ?_); inn)
  | (refine Tidy_upper (Env.textT ‹_› _ ?_); inn)
  | exact Tidy_quote
  | (refine Tidy_colon (Tidy_upper ?_) ?_ <;> assumption))

/-- One step of the machine. -/
syntax "ts" : tactic
/-- Kids of a list. -/
syntax "ks" : tactic

macro_rules
  | `(tactic| ks) => `(tactic| first
    | kh
    | with_reducible exact Kids_nil
    | ((with_reducible refine Kids_cons ?_ ?_) <;> ks)
    | ((with_reducible refine Kids_append ?_ ?_) <;> ks)
    | ((with_reducible refine Kids_opt ?_); kh)
    | ((with_reducible refine Kids_ite ?_ ?_) <;> ks)
    | ((with_reducible refine Kid_of ?_); repeat' ts))

macro_rules
  | `(tactic| ts) => `(tactic| first
    | ((with_reducible refine T_nil ?_); decide)
    | ((with_reducible refine T_kidI ?_ ?_ ?_); (· kh); (· decide))
    | ((with_reducible refine T_kidP ?_ ?_ ?_); (· kh); (· decide))
    | ((with_reducible refine T_tI ?_ ?_ ?_); (· decide); (· decide))
    | ((with_reducible refine T_kindt ?_ ?_ ?_); (· with_reducible exact Env.kindT ‹_› _ ‹_›); (· decide))
    | ((with_reducible refine T_bracketBody ?_ ?_ ?_); (· kh); (· decide))
    | ((with_reducible refine T_declarators ?_ ?_ ?_); (· kh); (· rfl))
    | ((with_reducible refine T_chain ?_ ?_ ?_ ?_); (· kh); (· decide))
    | ((with_reducible refine T_wcp ?_ ?_))
    | ((with_reducible refine T_wcpa ?_ ?_))
    | ((with_reducible refine T_spaced ?_ ?_ ?_); (· kh); (· rfl))
    | ((with_reducible refine T_spacedL ?_ ?_ ?_); (· kh); (· rfl))
    | ((with_reducible refine T_annotated ?_ ?_ ?_ ?_); (· kh); (· inl); (· decide); (· decide))
    | ((with_reducible refine T_tb ?_ ?_ ?_); (· decide); (· decide); dsimp only [fl])
    | ((with_reducible refine T_tLI ?_ ?_ ?_); (· decide); (· decide))
    | ((with_reducible refine T_tRI ?_ ?_ ?_); (· decide); (· decide))
    | ((with_reducible refine T_tLRI ?_ ?_ ?_); (· decide); (· decide))
    | ((with_reducible refine T_nilp ?_ ?_); (· decide); dsimp only [fl])
    | ((with_reducible refine T_valI ?_ ?_ ?_); (· inl); (· decide))
    | ((with_reducible refine T_txtRI ?_ ?_ ?_); (· inl); (· decide))
    | ((with_reducible refine T_txtLRI ?_ ?_ ?_); (· inl); (· decide))
    | ((with_reducible refine T_nl ?_); dsimp only [brk])
    | ((with_reducible refine T_soft ?_); dsimp only [brk])
    | ((with_reducible refine T_maybe ?_); dsimp only [brk])
    | ((with_reducible refine T_bwc ?_); simp only [List.cons_append, List.nil_append, List.append_assoc])
    | ((with_reducible refine T_bwcpI ?_ ?_); (· (repeat' ts); done))
    | ((with_reducible refine T_bwcpP ?_ ?_); (· (repeat' ts); done))
    | ((with_reducible refine T_bwcpI ?_ ?_))
    | ((with_reducible refine T_parenI ?_ ?_ ?_); (· ks); (· decide))
    | ((with_reducible refine T_inter1I ?_ ?_ ?_ ?_); (· ks); (· decide); (· decide))
    | ((with_reducible refine T_inter2I ?_ ?_ ?_ ?_); (· ks); (· decide); (· decide))
    | ((with_reducible refine T_interMap (by assumption) (by assumption) ?_ ?_ ?_ ?_); (· ks); (· decide); (· decide))
    | ((with_reducible refine T_interVec ‹_› ‹_› (by assumption) (by assumption) ?_ ?_ ?_ ?_ ?_); (· decide); (· ks); (· decide); (· decide))
    | ((with_reducible refine T_interNeI ‹_› ?_ ?_ ?_ ?_); (· ks); (· decide); (· decide))
    | ((with_reducible refine T_interI ?_ ?_ ?_ ?_); (· ks); (· decide); (· decide); dsimp only [fl])
    | ((with_reducible refine T_sAfter ?_ ?_ ?_ ?_ ?_ ?_ ?_); (· decide); (· ks); (· decide); (· decide); (· decide); (· decide))
    | ((with_reducible refine T_sAfter' ?_ ?_ ?_ ?_ ?_ ?_); (· decide); (· ks); (· decide); (· decide); (· decide))
    | ((with_reducible refine T_sPlain ?_ ?_ ?_ ?_ ?_); (· decide); (· ks); (· decide); (· decide))
    | ((with_reducible refine T_surroundBodyI ?_ ?_ ?_); (· kh); (· decide))
    | ((with_reducible refine T_interBodyI ?_ ?_ ?_); (· kh); (· decide); dsimp only [fl])
    | ((with_reducible refine T_concat_last ?_))
    | ((with_reducible refine T_concat ?_); simp only [List.cons_append, List.nil_append, List.append_assoc])
    | ((with_reducible refine T_group ?_); dsimp only [fl])
    | (with_reducible refine T_indent ?_)
    | (with_reducible refine T_dedent ?_)
    | (with_reducible refine T_force ?_)
    | (with_reducible refine T_pre ?_)
    | (with_reducible refine T_post ?_)
    | (with_reducible refine T_ifDangling ?_)
    | (with_reducible refine T_rootDangling ?_)
    | ((with_reducible refine T_optI ?_ ?_ ?_); (· kh); (· decide))
    | ((with_reducible refine T_optL ?_ ?_ ?_); (· kh); (· decide))
    | ((with_reducible refine T_optP ?_ ?_ ?_ ?_); (· kh); (· decide); (· decide))
    | ((with_reducible refine T_kidsI ?_ ?_ ?_); (· kh); (· decide))
    | ((with_reducible refine T_iteL ?_ ?_))
    | ((with_reducible refine T_ite ?_ ?_) <;> simp only [List.cons_append, List.nil_append, List.append_assoc])
    | ((with_reducible refine T_ite1 ?_ ?_) <;> simp only [List.cons_append, List.nil_append, List.append_assoc])
    | ((with_reducible refine T_seg ?_ ?_ ?_); (· assumption); (· rfl))
    | ((with_reducible refine T_segL ?_ ?_ ?_); (· assumption); (· rfl); (· decide))
    | ((with_reducible refine T_guard ?_); split)
    | (simp only [List.cons_append, List.nil_append, List.append_nil, List.append_assoc]))

/-- Binds of a constructor. -/
macro "pb" E:ident hn:ident : tactic => `(tactic| first
  | ((with_reducible refine P_bind (Env.recP $E _ _ ?_ ?_) (fun _ _ _ => ?_)); (· inn); (· rfl))
  | ((with_reducible refine P_bind (Env.optP $E ?_ ?_) (fun _ _ _ => ?_)); (· ino); (· rfl))
  | ((with_reducible refine P_bind (Env.members $E ?_ ?_) (fun _ _ _ => ?_)); (· inls); (· rfl))
  | ((with_reducible refine P_bind (Env.mapP $E ?_ ?_) (fun _ _ _ => ?_)); (· inls); (· rfl))
  | ((with_reducible refine P_bind (Env.dispatchs $E (e := .I) ?_ ?_) (fun _ _ _ => ?_)); (· inls); (· decide))
  | ((with_reducible refine P_bind (Env.member $E ?_ ?_) (fun _ _ _ => ?_)); (· inn); (· rfl))
  | with_reducible refine P_bind (Env.check $E) (fun _ _ _ => ?_)
  | ((with_reducible refine P_bind (Env.valueN $E ?_) (fun _ _ _ => ?_)); (· inn))
  | ((with_reducible refine P_bind (Env.valueK $E ?_) (fun _ _ _ => ?_)); (· inn))
  | ((with_reducible refine P_bind (Env.cByK $E ?_) (fun _ _ _ => ?_)); (· inn))
  | ((with_reducible refine P_bind (Env.cByN $E ?_) (fun _ _ _ => ?_)); (· inn))
  | ((with_reducible refine P_bind (Env.firstC $E ?_) (fun _ _ _ => ?_)); (· inn))
  | ((with_reducible refine P_bind (Env.csByK $E ?_) (fun _ _ ⟨_, _⟩ => ?_)); (· inn))
  | ((with_reducible refine P_bind (Env.csByN $E ?_) (fun _ _ ⟨_, _⟩ => ?_)); (· inn))
  | ((with_reducible refine P_bind (Env.nextNamed $E ?_) (fun _ _ _ => ?_)); (· inn))
  | with_reducible exact P_err
  | ((with_reducible refine P_mono (Env.recP $E _ _ ?_ ?_) (fun _ h => Kid_le h ?_)); (· inn); (· rfl); (· decide))
  | ((with_reducible refine P_mono (Env.dispatch $E (e := .I) ?_ ?_) (fun _ h => Kid_le h ?_)); (· inn); (· decide); (· decide))
  | ((with_reducible refine P_mono (Env.keyword $E ?_) (fun _ h => Kid_le h ?_)); (· decide); (· decide))
  | with_reducible refine P_bind (Q := Kid .I) ?_ (fun _ _ _ => ?_)
  | with_reducible refine P_bind (Q := Seg) ?_ (fun _ _ _ => ?_)
  | with_reducible refine P_bind (Q := fun _ => True) P_any (fun _ _ _ => ?_)
  | ((with_reducible refine P_ok (Kid_of ?_)))
  | ((with_reducible refine P_ok (Seg_of ?_)))
  | ((with_reducible refine P_pure (Kid_of ?_)))
  | ((with_reducible refine P_guard ?_); split))

/-- A constructor whose programs always print something. -/
macro "tt" E:ident hn:ident : tactic => `(tactic| (
  repeat' pb $E $hn
  all_goals try simp only [endOf, Prog.groupConcat, Prog.groupIndent, Prog.groupIndentConcat, Prog.groupSurround] at *
  all_goals try simp only [List.cons_append, List.nil_append, List.append_assoc]
  all_goals try repeat' ts))

end Afmt.Lines
