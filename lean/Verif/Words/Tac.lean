import Verif.Words.Mach
import Verif.Lines.Tac

/-!
# Word boundaries of programs: rules for the abstract machine
-/

namespace Afmt.Words
open Afmt.Prog (Ins)
open Afmt.Gram (endsWord headWord)
open Afmt.Lines (P P_bind P_ok P_pure P_err P_any P_mono P_get P_guard InL InO InL_vec InL_named InL_try InL_filter InL_drop InL_tail
  InL_head InL_last InO_K InO_N InO_first mapR_ne)

/-- Running the machine over the programs from `a` ends at most in `e`. -/
def T (a : St) (ps : List Prog) (e : St) : Prop := execs a ps ≤ e

instance (a : St) (ps : List Prog) (e : St) : Decidable (T a ps e) := inferInstanceAs (Decidable (execs a ps ≤ e))

/-- From `s` or a smaller state the program ends at most in `e`. -/
def Kid (s e : St) (p : Prog) : Prop := T s [p] e
/-- `Kid` for all programs. -/
def Kids (s e : St) (ps : List Prog) : Prop := ∀ p ∈ ps, Kid s e p
/-- `Kid` for the program, if any. -/
def OptK (s e : St) (o : Option Prog) : Prop := ∀ p, o = some p → Kid s e p
/-- `Kid` for all members. -/
def Mems (s e : St) (ms : List (Bool × Prog)) : Prop := ∀ m ∈ ms, Kid s e m.2
/-- A list of programs that may follow a word. -/
def Seg (ps : List Prog) : Prop := T .U ps .U
/-- A text that neither begins nor ends with a character of a word. -/
def Solid (s : Str) : Prop := headWord s = false ∧ endsWord true s = false

theorem T_nil {a e : St} (h : a ≤ e) : T a [] e := h
theorem T_app {a b e : St} {ps qs : List Prog} (h : T a ps b) (h' : T b qs e) : T a (ps ++ qs) e := by
  unfold T at *
  rw [execs_append]
  exact St.le_trans (execs_mono h _) h'
theorem T_cons {a b e : St} {p : Prog} {qs : List Prog} (h : T a [p] b) (h' : T b qs e) : T a (p :: qs) e :=
  T_app (ps := [p]) h h'
theorem T_start {a a' e : St} {ps : List Prog} (h : a ≤ a') (h' : T a' ps e) : T a ps e := St.le_trans (execs_mono h _) h'
theorem T_end {a e e' : St} {ps : List Prog} (h : T a ps e) (h' : e ≤ e') : T a ps e' := St.le_trans h h'

theorem T_concat {a e : St} {ps qs : List Prog} (h : T a (ps ++ qs) e) : T a (.concat ps :: qs) e := by
  unfold T at *; rw [execs_append] at h; rw [execs, exec]; exact h
theorem T_concat_last {a e : St} {ps : List Prog} (h : T a ps e) : T a [.concat ps] e := T_concat (by rwa [List.append_nil])
theorem T_group {a e : St} {p : Prog} {qs : List Prog} (h : T a (p :: qs) e) : T a (.group p :: qs) e := by
  unfold T at *; rw [execs] at h; rw [execs, exec]; exact h
theorem T_indent {a e : St} {p : Prog} {qs : List Prog} (h : T a (p :: qs) e) : T a (.indent p :: qs) e := by
  unfold T at *; rw [execs] at h; rw [execs, exec]; exact h
theorem T_dedent {a e : St} {p : Prog} {qs : List Prog} (h : T a (p :: qs) e) : T a (.dedent p :: qs) e := by
  unfold T at *; rw [execs] at h; rw [execs, exec]; exact h
theorem T_ifDangling {a b e : St} {i : Nat} {p q : Prog} {qs : List Prog} (h1 : T a [p] b) (h2 : T a [q] b) (h : T b qs e) :
    T a (.ifDangling i p q :: qs) e := by
  unfold T at *
  rw [execs, execs] at h1 h2
  rw [execs, exec]
  exact St.le_trans (execs_mono (up_le h1 h2) _) h
theorem T_pre {a e : St} {i : Nat} {qs : List Prog} (h : T a qs e) : T a (.pre i :: qs) e := by
  unfold T at *; rw [execs, exec]; exact h
theorem T_post {a e : St} {i : Nat} {qs : List Prog} (h : T a qs e) : T a (.post i :: qs) e := by
  unfold T at *; rw [execs, exec]; exact h
theorem T_rootDangling {a e : St} {i : Nat} {qs : List Prog} (h : T a qs e) : T a (.rootDangling i :: qs) e := by
  unfold T at *; rw [execs, exec]; exact h
theorem T_force {a e : St} {qs : List Prog} (h : T a qs e) : T a (.forceBreak :: qs) e := by
  unfold T at *; rw [execs, exec]; exact h
theorem T_fail {a e : St} {x : Panic} {qs : List Prog} (h : T a qs e) : T a (.fail x :: qs) e := by
  unfold T at *; rw [execs, exec]; exact h
theorem T_maybe {a e : St} {qs : List Prog} (h : T a qs e) : T a (.maybeline :: qs) e := by
  unfold T at *; rw [execs, exec]; exact h
theorem rs_S {a : St} (h : a ≤ .U) : rs a = .S := by revert h; cases a <;> decide
theorem T_dangling {a e : St} {i : Nat} {qs : List Prog} (ha : a ≤ .U) (h : T .S qs e) : T a (.dangling i :: qs) e := by
  unfold T at *; rw [execs, exec, rs_S ha]; exact h
theorem T_nl {a e : St} {qs : List Prog} (ha : a ≤ .U) (h : T .S qs e) : T a (.nl :: qs) e := by
  unfold T at *; rw [execs, exec, rs_S ha]; exact h
theorem T_soft {a e : St} {qs : List Prog} (ha : a ≤ .U) (h : T .S qs e) : T a (.softline :: qs) e := by
  unfold T at *; rw [execs, exec, rs_S ha]; exact h
theorem T_sep {a e : St} {b : Bool} {qs : List Prog} (ha : a ≤ .U) (h : T .S qs e) : T a (.sep b :: qs) e := by
  unfold T at *; rw [execs, exec, rs_S ha]; exact h

/-- A text. -/
theorem T_txt {a b e : St} {s : Str} {qs : List Prog} (h : tx a s ≤ b) (h' : T b qs e) : T a (.txt s :: qs) e := by
  unfold T at *
  rw [execs, exec]
  exact St.le_trans (execs_mono h _) h'

theorem T_punct {a e : St} {p : Punc} {qs : List Prog} (ha : a ≤ .U) (h : T .S qs e) : T a (.punct p :: qs) e := by
  unfold T at *
  rw [execs, exec]
  have h1 : ∀ a, a ≤ .U → tx a p.text = .S := by
    intro a ha
    unfold Punc.text; split <;> (revert ha; cases a <;> decide)
  rw [h1 a ha]
  exact h

theorem T_punctOpt {a e : St} {o : Option Punc} {qs : List Prog} (ha : a ≤ .U) (h : T a qs e) :
    T a (Prog.punctOpt o ++ qs) e := by
  cases o with
  | none => exact h
  | some p => exact T_punct ha (T_start (St.S_le a) h)

theorem T_kid {a s b e : St} {p : Prog} {qs : List Prog} (hk : Kid s b p) (ha : a ≤ s) (h : T b qs e) : T a (p :: qs) e :=
  T_cons (T_start ha hk) h

theorem Kid_le {s s' e e' : St} {p : Prog} (h : Kid s e p) (hs : s' ≤ s) (h' : e ≤ e') : Kid s' e' p := T_start hs (T_end h h')
theorem Kids_le {s s' e e' : St} {ps : List Prog} (h : Kids s e ps) (hs : s' ≤ s) (h' : e ≤ e') : Kids s' e' ps :=
  fun p hp => Kid_le (h p hp) hs h'
theorem OptK_le {s s' e e' : St} {o : Option Prog} (h : OptK s e o) (hs : s' ≤ s) (h' : e ≤ e') : OptK s' e' o :=
  fun p hp => Kid_le (h p hp) hs h'
theorem Mems_le {s s' e e' : St} {ms : List (Bool × Prog)} (h : Mems s e ms) (hs : s' ≤ s) (h' : e ≤ e') : Mems s' e' ms :=
  fun p hp => Kid_le (h p hp) hs h'

theorem T_optS {a s e : St} {o : Option Prog} {qs : List Prog} (hk : OptK s .S o) (ha : a ≤ s) (h : T a qs e) :
    T a (Prog.opt o ++ qs) e := by
  cases o with
  | none => exact h
  | some p => exact T_kid (hk p rfl) ha (T_start (St.S_le _) h)
theorem T_optU {a s b e : St} {o : Option Prog} {qs : List Prog} (hk : OptK s b o) (ha : a ≤ s) (hb : b ≤ .U) (hs : s ≤ .U) (h : T .U qs e) :
    T a (Prog.opt o ++ qs) e := by
  cases o with
  | none => exact T_start (St.le_trans ha hs) h
  | some p => exact T_kid (hk p rfl) ha (T_start hb h)

/-- Kids one after the other. -/
theorem T_kids {a s e : St} {ps qs : List Prog} (hk : Kids s s ps) (ha : a ≤ s) (h : T s qs e) : T a (ps ++ qs) e := by
  have key : ∀ ps a, a ≤ s → Kids s s ps → T a ps s := by
    intro ps
    induction ps with
    | nil => intro a h _; exact h
    | cons p ps ih =>
      intro a ha hk
      exact T_kid (hk p (by simp)) ha (ih s (St.le_refl _) (fun q hq => hk q (by simp [hq])))
  exact T_app (key ps a ha hk) h

theorem T_ite {a e : St} {c : Prop} [Decidable c] {ps ps' qs : List Prog} (h : T a (ps ++ qs) e) (h' : T a (ps' ++ qs) e) :
    T a ((if c then ps else ps') ++ qs) e := by split <;> assumption
theorem T_ite1 {a e : St} {c : Prop} [Decidable c] {p p' : Prog} {qs : List Prog} (h : T a (p :: qs) e) (h' : T a (p' :: qs) e) :
    T a ((if c then p else p') :: qs) e := by split <;> assumption
theorem T_iteL {a e : St} {c : Prop} [Decidable c] {ps ps' : List Prog} (h : T a ps e) (h' : T a ps' e) :
    T a (if c then ps else ps') e := by split <;> assumption

/-! ### Lists -/

theorem T_interParts {x : Ins} (hx : T .U x.progs .S) : ∀ {ps : List Prog}, Kids .S .U ps →
    T .S (Prog.intersperseParts x ps) .U
  | [], _ => by rw [Prog.intersperseParts]; exact St.S_le _
  | [p], hk => by
    rw [Prog.intersperseParts]
    exact T_kid (hk p (by simp)) (St.le_refl _) (St.le_refl _)
  | p :: q :: ps, hk => by
    rw [Prog.intersperseParts]
    · refine T_kid (hk p (by simp)) (St.le_refl _) (T_app hx ?_)
      exact T_interParts hx (fun r hr => hk r (by simp [List.mem_cons.1 hr]))
    · simp

theorem T_inter {a e : St} {x : Ins} {ps qs : List Prog} (hk : Kids .S .U ps) (ha : a ≤ .S) (hx : T .U x.progs .S)
    (h : T .U qs e) : T a (Prog.intersperse ps x :: qs) e := by
  cases ps with
  | nil => exact T_start ha (T_txt (show tx .S [] ≤ .U by decide) h)
  | cons p ps => exact T_concat (T_app (T_start ha (T_interParts hx hk)) h)

/-- `surround` with opening and closing texts. -/
theorem T_surround {a e : St} {x : Ins} {o c : Str} {so pc : Option Prog} {ps qs : List Prog} (hk : Kids .S .U ps)
    (hx : T .U x.progs .S) (h1 : T a (.txt o :: (Prog.opt so).map .indent) .S) (h2 : T .U (Prog.opt pc ++ [.txt c]) .S)
    (h0 : T a [.txt o, .txt c] .S) (h : T .S qs e) :
    T a (Prog.surround ps x ⟨none, some o, so⟩ ⟨pc, some c, none⟩ :: qs) e := by
  cases ps with
  | nil =>
    rw [Prog.surround]
    exact T_concat (T_app h0 h)
  | cons p ps =>
    rw [Prog.surround]
    · refine T_concat ?_
      simp only [Prog.opt, Prog.optT, List.nil_append, List.append_nil, List.append_assoc]
      rw [← List.append_assoc]
      refine T_app h1 (T_indent (T_inter hk (St.le_refl _) hx ?_))
      have := T_app h2 h
      rwa [List.append_assoc] at this
    · simp

/-! ### Bodies -/

theorem T_bodyParts : ∀ {ms : List (Bool × Prog)}, Mems .S .U ms → T .S (Prog.bodyParts ms) .U
  | [], _ => by rw [Prog.bodyParts]; exact St.S_le _
  | [(t, p)], hk => by
    rw [Prog.bodyParts]
    exact T_kid (hk (t, p) (by simp)) (St.le_refl _) (St.le_refl _)
  | (tr, p) :: q :: ms, hk => by
    rw [Prog.bodyParts]
    · refine T_kid (hk (tr, p) (by simp)) (St.le_refl _) (T_sep (St.le_refl _) ?_)
      exact T_bodyParts (fun r hr => hk r (by simp [List.mem_cons.1 hr]))
    · simp

theorem T_interBody {a e : St} {ms : List (Bool × Prog)} {qs : List Prog} (hk : Mems .S .U ms) (ha : a ≤ .S)
    (h : T .U qs e) : T a (Prog.intersperseBody ms :: qs) e := by
  cases ms with
  | nil => exact T_start ha (T_txt (show tx .S [] ≤ .U by decide) h)
  | cons m ms => exact T_concat (T_app (T_start ha (T_bodyParts hk)) h)

theorem T_surroundBody {a e : St} {ms : List (Bool × Prog)} {qs : List Prog} (hk : Mems .S .U ms) (ha : a ≤ .U)
    (h : T .S qs e) : T a (Prog.surroundBody ms :: qs) e := by
  refine T_start ha ?_
  cases ms with
  | nil =>
    exact T_concat (T_txt (b := .S) (by decide) (T_nl (by decide) (T_txt (b := .S) (by decide) h)))
  | cons m ms =>
    rw [Prog.surroundBody]
    · refine T_concat (T_txt (b := .S) (by decide) (T_indent (T_nl (by decide) (T_indent (T_interBody hk (by decide) ?_)))))
      exact T_nl (by decide) (T_txt (b := .S) (by decide) h)
    · simp

theorem T_bracketBody {a e : St} {n : Loc} {ms : List (Bool × Prog)} {qs : List Prog} (hk : Mems .S .U ms) (ha : a ≤ .U)
    (h : T .S qs e) : T a (Prog.New.bracketBody n ms :: qs) e := by
  refine T_start ha (T_concat (T_pre (T_ifDangling (b := .S) ?_ (T_concat (T_surroundBody hk (by decide) (T_post (T_nil (by decide))))) h)))
  refine T_concat (T_txt (b := .S) (by decide) (T_indent (T_nl (by decide) (T_indent (T_dangling (by decide) ?_)))))
  exact T_nl (by decide) (T_txt (b := .S) (by decide) (T_nil (by decide)))

/-! ### Texts -/

theorem endsWord_append (s r : Str) : ∀ w, endsWord w (s ++ r) = endsWord (endsWord w s) r := by
  induction s with
  | nil => intro w; rfl
  | cons c s ih => intro w; exact ih _
theorem endsWord_blank (w : Bool) (s : Str) : endsWord w (s ++ [' ']) = false := by rw [endsWord_append]; rfl

theorem T_val {a e : St} {s : Str} {qs : List Prog} (ha : a ≤ .S) (hq : T .U qs e) : T a (.txt s :: qs) e := by
  refine T_start ha (T_txt (b := .U) ?_ hq)
  show (if endsWord false s then St.U else St.S) ≤ .U
  split <;> decide
theorem T_txtR {a e : St} {s : Str} {qs : List Prog} (ha : a ≤ .S) (hq : T .S qs e) : T a (Prog.txtR s :: qs) e := by
  refine T_start ha (T_txt (b := .S) ?_ hq)
  show (if endsWord false (s ++ [' ']) then St.U else St.S) ≤ .S
  rw [endsWord_blank]; decide
theorem T_txtLR {a e : St} {s : Str} {qs : List Prog} (ha : a ≤ .U) (hq : T .S qs e) : T a (Prog.txtLR s :: qs) e := by
  refine T_start ha (T_txt (b := .S) ?_ hq)
  show (if false then St.bad else if endsWord false (s ++ [' ']) then St.U else St.S) ≤ .S
  rw [endsWord_blank]; decide
theorem T_solid {a e : St} {s : Str} {qs : List Prog} (h : Solid s) (ha : a ≤ .U) (hq : T .S qs e) : T a (.txt s :: qs) e := by
  refine T_start ha (T_txt (b := .S) ?_ hq)
  show (if headWord s then St.bad else if endsWord true s then St.U else St.S) ≤ .S
  rw [h.1, h.2]; decide

theorem T_tS {a e : St} {s : String} {qs : List Prog} (h : tx a s.toList ≤ .S) (h' : T .S qs e) : T a (Prog.t s :: qs) e := T_txt h h'
theorem T_tU {a e : St} {s : String} {qs : List Prog} (h : tx a s.toList ≤ .U) (h' : T .U qs e) : T a (Prog.t s :: qs) e := T_txt h h'
theorem T_tL {a e : St} {s : String} {qs : List Prog} (h : tx a (' ' :: s.toList) ≤ .U) (h' : T .U qs e) : T a (Prog.tL s :: qs) e := T_txt h h'
theorem T_tR {a e : St} {s : String} {qs : List Prog} (h : tx a (s.toList ++ [' ']) ≤ .S) (h' : T .S qs e) : T a (Prog.tR s :: qs) e := T_txt h h'
theorem T_tLR {a e : St} {s : String} {qs : List Prog} (h : tx a (' ' :: (s.toList ++ [' '])) ≤ .S) (h' : T .S qs e) : T a (Prog.tLR s :: qs) e := T_txt h h'
theorem T_nilp {a e : St} {qs : List Prog} (h : T a qs e) : T a (Prog.nil :: qs) e := T_txt (show tx a [] ≤ a by cases a <;> decide) h
/-- A text of the tree given by its kind. -/
theorem T_kindt {a e : St} {k : String} {qs : List Prog} (ha : a ≤ .S) (hq : T .U qs e) : T a (Prog.t k :: qs) e := T_val ha hq

/-! ### Wrappers -/

theorem T_wcp {a b e : St} {i : Nat} {p : Option Punc} {ps qs : List Prog} (ha : a ≤ .U) (hb : b ≤ .U) (h : T a ps b) (h' : T b qs e) :
    T a (Prog.withCommentsAndPunc i p ps :: qs) e := by
  refine T_concat ?_
  simp only [List.cons_append, List.nil_append]
  refine T_pre (T_ifDangling (b := b) (T_dangling ha (T_nil (St.S_le _))) (T_concat_last h) ?_)
  exact T_ifDangling (b := b) (T_concat_last (T_nil (St.le_refl _))) (T_post (T_nil (St.le_refl _))) (T_punctOpt hb h')
theorem T_wcpa {a b e : St} {i : Nat} {p : Option Punc} {ps qs : List Prog} (ha : a ≤ .U) (hb : b ≤ .U) (h : T a ps b) (h' : T b qs e) :
    T a (Prog.withCommentsAndPuncAttached i p ps :: qs) e := by
  refine T_concat ?_
  simp only [List.cons_append, List.nil_append, List.append_assoc]
  refine T_pre (T_ifDangling (b := b) (T_dangling ha (T_nil (St.S_le _))) (T_concat_last h) (T_punctOpt hb ?_))
  exact T_ifDangling (b := b) (T_concat_last (T_nil (St.le_refl _))) (T_post (T_nil (St.le_refl _))) h'
theorem T_bwcp {a b e : St} {n : Loc} {ps qs : List Prog} (ha : a ≤ .U) (hb : b ≤ .U) (h : T a ps b) (h' : T b qs e) :
    T a (Prog.New.bwcp n ps :: qs) e := T_wcp ha hb h h'
theorem T_bwc {a b e : St} {n : Loc} {ps qs : List Prog} (ha : a ≤ .U) (h : T a ps b) (h' : T b qs e) :
    T a (Prog.New.bwc n ps :: qs) e := by
  refine T_concat (T_pre (T_ifDangling (b := b) (T_dangling ha (T_nil (St.S_le _))) (T_concat_last ?_) h'))
  exact T_app h (T_post (T_nil (St.le_refl _)))

theorem T_paren {a e : St} {ps qs : List Prog} (hk : Kids .S .U ps) (ha : a ≤ .U) (h : T .S qs e) :
    T a (Prog.New.parenList ps :: qs) e :=
  T_start ha (T_group (T_surround hk (by decide) (by decide) (by decide) (by decide) h))

theorem T_declarators {a e : St} {ps qs : List Prog} (hk : Kids .S .U ps) (ha : a ≤ .S) (h : T .U qs e) :
    T a (Prog.New.declaratorsDoc ps :: qs) e := by
  unfold Prog.New.declaratorsDoc
  split
  · exact T_kid (hk _ (by simp)) ha h
  · exact T_group (T_indent (T_inter hk ha (by decide) h))
theorem T_chain {a e : St} {c : Option ChainingContext} {o : Prog} {link qs : List Prog} (ho : Kid .S .U o) (ha : a ≤ .S)
    (hl : T .U link .U) (h : T .U qs e) : T a (Prog.New.chainDoc c o link :: qs) e := by
  have key : ∀ {b : Bool}, T a (([o] ++ (if b then [Prog.maybeline] else []) ++ link) ++ qs) e := by
    intro b
    rw [List.append_assoc, List.append_assoc]
    refine T_kid ho ha ?_
    cases b
    · simpa using T_app hl h
    · simpa using T_maybe (T_app hl h)
  unfold Prog.New.chainDoc
  cases c with
  | none => exact T_concat (T_kid ho ha (T_app hl h))
  | some c =>
    dsimp only
    split
    · exact T_group (T_indent (T_concat key))
    · exact T_concat key
theorem T_spaced {a e : St} {o : Option Prog} {qs : List Prog} (ho : OptK .S .U o) (ha : a ≤ .U) (h : T .U qs e) :
    T a (Prog.New.spaced o ++ qs) e := by
  refine T_start ha ?_
  cases o with
  | none => exact h
  | some p => exact T_tS (by decide) (T_kid (ho p rfl) (by decide) h)
theorem T_spacedL {a e : St} {o : Option Prog} (ho : OptK .S .U o) (ha : a ≤ .U) (h : T .U [] e) :
    T a (Prog.New.spaced o) e := by
  rw [← List.append_nil (Prog.New.spaced o)]; exact T_spaced ho ha h
theorem T_annotated {a e : St} {ps : List Prog} {s : Str} (hk : Kids .S .U ps) (ha : a ≤ .S) (h : St.U ≤ e) :
    T a (Prog.New.annotatedName ps s) e := by
  unfold Prog.New.annotatedName
  split
  · exact T_val ha h
  · exact T_inter hk ha (by decide) (T_tS (by decide) (T_val (by decide) h))

/-! ### Lists of kids -/

theorem Kids_nil {s e : St} : Kids s e [] := fun _ h => absurd h (by simp)
theorem Kids_cons {s e : St} {p : Prog} {ps : List Prog} (h : Kid s e p) (h' : Kids s e ps) : Kids s e (p :: ps) := by
  intro q hq
  rcases List.mem_cons.1 hq with rfl | hq
  · exact h
  · exact h' q hq
theorem Kids_append {s e : St} {ps qs : List Prog} (h : Kids s e ps) (h' : Kids s e qs) : Kids s e (ps ++ qs) := by
  intro q hq
  rcases List.mem_append.1 hq with hq | hq
  · exact h q hq
  · exact h' q hq
theorem Kids_opt {s e : St} {o : Option Prog} (h : OptK s e o) : Kids s e (Prog.opt o) := by
  cases o with
  | none => exact Kids_nil
  | some p => exact Kids_cons (h p rfl) Kids_nil
theorem Kids_ite {s e : St} {c : Prop} [Decidable c] {ps qs : List Prog} (h : Kids s e ps) (h' : Kids s e qs) :
    Kids s e (if c then ps else qs) := by split <;> assumption
theorem Kid_of {s e : St} {p : Prog} (h : T s [p] e) : Kid s e p := h
theorem Seg_of {ps : List Prog} (h : T .U ps .U) : Seg ps := h
theorem OptK_get {s e : St} {p : Prog} (h : OptK s e (some p)) : Kid s e p := h p rfl
theorem Kid_last {s e : St} {ps : List Prog} {p : Prog} (h : Kids s e ps) (hp : ps.getLast? = some p) : Kid s e p :=
  h p (List.mem_of_getLast? hp)
theorem Kids_head {s e : St} {p : Prog} {ps : List Prog} (h : Kids s e (p :: ps)) : Kid s e p := h p (.head _)
theorem Kids_tail {s e : St} {p : Prog} {ps : List Prog} (h : Kids s e (p :: ps)) : Kids s e ps := fun q hq => h q (.tail _ hq)
theorem Mems_nil {s e : St} : Mems s e [] := fun _ h => absurd h (by simp)

/-! ### Results -/

theorem P_opt {α : Type} {s e : St} {o : Option α} {f : α → R Prog} (h : ∀ x, o = some x → P (f x) (Kid s e)) :
    P (optR o f) (OptK s e) := by
  refine Lines.P_of fun r hr p hp => ?_
  subst hp
  cases o with
  | none => cases hr
  | some x =>
    simp only [optR] at hr
    split at hr
    · rename_i b hb
      cases hr
      exact P_get (h x rfl) hb
    · cases hr

theorem P_map {α : Type} {s e : St} {f : α → R Prog} : ∀ {xs : List α}, (∀ x ∈ xs, P (f x) (Kid s e)) → P (mapR f xs) (Kids s e)
  | [], _ => by refine Lines.P_of fun r hr => ?_; cases hr; exact Kids_nil
  | x :: xs, h => by
    refine Lines.P_of fun r hr => ?_
    rw [mapR] at hr
    split at hr
    · cases hr
    · rename_i b hb
      split at hr
      · cases hr
      · rename_i bs hbs
        cases hr
        exact Kids_cons (P_get (h x (by simp)) hb) (P_get (P_map (fun y hy => h y (by simp [hy]))) hbs)

theorem P_mapM {α : Type} {s e : St} {f : α → R (Bool × Prog)} : ∀ {xs : List α}, (∀ x ∈ xs, P (f x) (fun m => Kid s e m.2)) →
    P (mapR f xs) (Mems s e)
  | [], _ => by refine Lines.P_of fun r hr => ?_; cases hr; intro m hm; cases hm
  | x :: xs, h => by
    refine Lines.P_of fun r hr => ?_
    rw [mapR] at hr
    split at hr
    · cases hr
    · rename_i b hb
      split at hr
      · cases hr
      · rename_i bs hbs
        cases hr
        intro m hm
        rcases List.mem_cons.1 hm with rfl | hm
        · exact P_get (Q := fun m => Kid s e m.2) (h x (by simp)) hb
        · exact P_get (P_mapM (fun y hy => h y (by simp [hy]))) hbs m hm

/-- The state up to which the programs of a class may start. -/
def startOf : Cls → St
  | .argumentList => .U
  | .typeArguments => .U
  | .typeParameters => .U
  | .formalParameters => .U
  | .dimensions => .U
  | .dimensionsExpr => .U
  | .annotationArgumentList => .U
  | .safeNavigationOperator => .U
  | .extendsInterface => .U
  | .parenthesizedExpression => .U
  | .classBody => .U
  | .enumBody => .U
  | .arrayInitializer => .U
  | .mapInitializer => .U
  | .comparison => .U
  | .catchClause => .U
  | .finallyClause => .U
  | .boundApexExpression => .U
  | _ => .S

/-- The state in which the programs of a class end. -/
def endOf : Cls → St
  | .annotation => .S
  | .modifiers => .S
  | .safeNavigationOperator => .S
  | .typeParameters => .S
  | .typeArguments => .S
  | _ => .U

/-- The classes that other constructors call for any node. -/
def callable : Cls → Bool
  | .constructInvocation => false
  | _ => true

/-- What the constructors need to know about the texts of the tree. -/
structure WordTree (root : Node) : Prop where
  opers : ∀ l o : Loc, In root l → ["unary_expression", "update_expression"].contains l.kind = true →
    l.tryCByN "operator" = some o → Solid o.value
  object : ∀ l : Loc, In root l → l.kind = "explicit_constructor_invocation" → l.tryCByN "object" = none

/-- The setting: a tree, and constructors whose programs behave. -/
structure Env (root : Node) (rec : Rec) : Prop extends WordTree root where
  call : ∀ c l, In root l → callable c = true → P (rec c l) (Kid (startOf c) (endOf c))
  inv : ∀ l, In root l → l.kind = "explicit_constructor_invocation" → P (rec .constructInvocation l) (Kid .S .U)

section
variable {root : Node} {rec : Rec}

theorem Env.recP (E : Env root rec) (c : Cls) (l : Loc) (hl : In root l) (hc : callable c = true) :
    P (rec c l) (Kid (startOf c) (endOf c)) := E.call c l hl hc

theorem InO.get {o : Option Loc} (h : InO root o) {x : Loc} (hx : o = some x) : In root x := by
  unfold InO at h; exact h x hx
theorem InL.get {xs : List Loc} (h : InL root xs) {x : Loc} (hx : x ∈ xs) : In root x := by
  unfold InL at h; exact h x hx

theorem Env.optP (E : Env root rec) {c : Cls} {o : Option Loc} (h : InO root o) (hc : callable c = true) :
    P (optR o (rec c)) (OptK (startOf c) (endOf c)) := P_opt (fun _ hx => E.call c _ (InO.get h hx) hc)

theorem Env.mapP (E : Env root rec) {c : Cls} {xs : List Loc} (h : InL root xs) (hc : callable c = true) :
    P (mapR (rec c) xs) (Kids (startOf c) (endOf c)) := P_map (fun _ hx => E.call c _ (InL.get h hx) hc)

theorem Env.member (_ : Env root rec) {cfg : Cfg} {c : Cls} {l : Loc} (h : P (rec c l) (Kid (startOf c) (endOf c))) :
    P (Prog.New.bodyMember cfg rec c l) (fun m => Kid (startOf c) (endOf c) m.2) := by
  refine Lines.P_of fun m hm => ?_
  unfold Prog.New.bodyMember at hm
  split at hm
  · cases hm
  · rename_i p hp
    split at hm
    · cases hm
    · cases hm; exact P_get h hp

theorem Env.members (E : Env root rec) {cfg : Cfg} {c : Cls} {xs : List Loc} (h : InL root xs) (hc : callable c = true) :
    P (mapR (Prog.New.bodyMember cfg rec c) xs) (Mems (startOf c) (endOf c)) := P_mapM (fun _ hx => E.member (E.call c _ (InL.get h hx) hc))

theorem Env.dispatch (E : Env root rec) {tbl : List (String × Cls)} {l : Loc} {s e : St} (hl : In root l)
    (h : tbl.all (fun x => decide (endOf x.2 ≤ e) && decide (s ≤ startOf x.2) && callable x.2) = true) :
    P (Prog.New.dispatch rec tbl l) (Kid s e) := by
  refine Lines.P_of fun p hp => ?_
  unfold Prog.New.dispatch at hp
  split at hp
  · rename_i x hx
    have := List.all_eq_true.1 h x (List.mem_of_find?_eq_some hx)
    rw [Bool.and_eq_true, Bool.and_eq_true, decide_eq_true_eq, decide_eq_true_eq] at this
    exact Kid_le (P_get (E.call _ _ hl this.2) hp) this.1.2 this.1.1
  · cases hp

theorem Env.dispatchs (E : Env root rec) {tbl : List (String × Cls)} {xs : List Loc} {s e : St} (hl : InL root xs)
    (h : tbl.all (fun x => decide (endOf x.2 ≤ e) && decide (s ≤ startOf x.2) && callable x.2) = true) :
    P (mapR (Prog.New.dispatch rec tbl) xs) (Kids s e) := P_map (fun x hx => E.dispatch (InL.get hl hx) h)

theorem Env.cByK (_ : Env root rec) {n : Loc} (hn : In root n) {k : String} : P (n.cByK k) (In root) := Lines.P_of fun _ h => in_cByK hn h
theorem Env.cByN (_ : Env root rec) {n : Loc} (hn : In root n) {k : String} : P (n.cByN k) (In root) := Lines.P_of fun _ h => in_cByN hn h
theorem Env.firstC (_ : Env root rec) {n : Loc} (hn : In root n) : P n.firstC (In root) := Lines.P_of fun _ h => in_firstC hn h
theorem Env.csByK (_ : Env root rec) {n : Loc} (hn : In root n) {k : String} : P (n.csByK k) (InL root) :=
  Lines.P_of fun _ h => by unfold InL; exact fun _ hc => in_csByK hn h hc
theorem Env.csByN (_ : Env root rec) {n : Loc} (hn : In root n) {k : String} : P (n.csByN k) (InL root) :=
  Lines.P_of fun _ h => by unfold InL; exact fun _ hc => in_csByN hn h hc
theorem Env.nextNamed (_ : Env root rec) {n : Loc} (hn : In root n) : P n.nextNamed (In root) := Lines.P_of fun _ h => in_nextNamed hn h
theorem Env.check (_ : Env root rec) {n : Loc} {k : String} : P (assertCheck n k) (fun _ => n.kind = k) := by
  refine Lines.P_of fun _ h => ?_
  unfold assertCheck at h
  split at h
  · rename_i hk; exact eq_of_beq hk
  · cases h
theorem Env.keyword (_ : Env root rec) {tbl : List (String × String)} {l : Loc} :
    P (Prog.New.keyword tbl l) (Kid .S .U) := by
  refine Lines.P_of fun p hp => ?_
  unfold Prog.New.keyword at hp
  split at hp
  · cases hp
    exact Kid_of (T_kindt (by decide) (T_nil (by decide)))
  · cases hp
end

theorem T_sAfter {a e : St} {x : Ins} {o c : String} {so pc : Prog} {ps qs : List Prog} (hk : Kids .S .U ps)
    (hx : T .U x.progs .S) (h1 : T a [Prog.t o, .indent so] .S ∧ T .U [pc, Prog.t c] .S ∧ T a [Prog.t o, Prog.t c] .S) (h : T .S qs e) :
    T a (Prog.surround ps x (.sAfter o so) (.before pc c) :: qs) e := T_surround hk hx h1.1 h1.2.1 h1.2.2 h
theorem T_sAfter' {a e : St} {x : Ins} {o c : String} {so : Prog} {ps qs : List Prog} (hk : Kids .S .U ps)
    (hx : T .U x.progs .S) (h1 : T a [Prog.t o, .indent so] .S ∧ T .U [Prog.t c] .S ∧ T a [Prog.t o, Prog.t c] .S) (h : T .S qs e) :
    T a (Prog.surround ps x (.sAfter o so) (.s c) :: qs) e := T_surround hk hx h1.1 h1.2.1 h1.2.2 h
theorem T_sPlain {a e : St} {x : Ins} {o c : String} {ps qs : List Prog} (hk : Kids .S .U ps)
    (hx : T .U x.progs .S) (h1 : T a [Prog.t o] .S ∧ T .U [Prog.t c] .S ∧ T a [Prog.t o, Prog.t c] .S) (h : T .S qs e) :
    T a (Prog.surround ps x (.s o) (.s c) :: qs) e := T_surround hk hx h1.1 h1.2.1 h1.2.2 h
theorem T_guard {a e : St} {ps : List Prog} (h : T a ps e) : T a ps e := h
theorem T_bwcpS {a e : St} {n : Loc} {ps qs : List Prog} (ha : a ≤ .U) (h : T a ps .S) (h' : T .S qs e) :
    T a (Prog.New.bwcp n ps :: qs) e := T_bwcp ha (by decide) h h'
theorem T_bwcpU {a e : St} {n : Loc} {ps qs : List Prog} (ha : a ≤ .U) (h : T a ps .U) (h' : T .U qs e) :
    T a (Prog.New.bwcp n ps :: qs) e := T_bwcp ha (by decide) h h'
theorem T_bwcS {a e : St} {n : Loc} {ps qs : List Prog} (ha : a ≤ .U) (h : T a ps .S) (h' : T .S qs e) :
    T a (Prog.New.bwc n ps :: qs) e := T_bwc ha h h'
theorem T_bwcU {a e : St} {n : Loc} {ps qs : List Prog} (ha : a ≤ .U) (h : T a ps .U) (h' : T .U qs e) :
    T a (Prog.New.bwc n ps :: qs) e := T_bwc ha h h'
theorem T_optL {a e : St} {o : Option Prog} (h : T a (Prog.opt o ++ []) e) : T a (Prog.opt o) e := by
  rwa [List.append_nil] at h
theorem T_seg {a e : St} {ps qs : List Prog} (h : Seg ps) (ha : a ≤ .U) (h' : T .U qs e) : T a (ps ++ qs) e :=
  T_start ha (T_app h h')
theorem T_segL {a e : St} {ps : List Prog} (h : Seg ps) (ha : a ≤ .U) (he : St.U ≤ e) : T a ps e := T_start ha (T_end h he)
theorem T_kidsS {a e : St} {ps qs : List Prog} (hk : Kids .S .S ps) (ha : a ≤ .S) (h : T .S qs e) : T a (ps ++ qs) e := T_kids hk ha h
theorem T_kidsU {a e : St} {ps qs : List Prog} (hk : Kids .U .U ps) (ha : a ≤ .U) (h : T .U qs e) : T a (ps ++ qs) e := T_kids hk ha h
theorem P_dml {n : Loc} : P (Prog.New.dmlTypeVariant n) (Kid .S .U) := by
  refine Lines.P_of fun p hp => ?_
  unfold Prog.New.dmlTypeVariant at hp
  split at hp
  · cases hp
    exact Kid_of (T_val (by decide) (T_nil (by decide)))
  · cases hp

theorem T_run {a : St} {p : Prog} (h : T a [p] .U) : exec a p ≠ .bad := by
  unfold T at h
  rw [execs, execs] at h
  intro hb
  rw [hb] at h
  exact absurd h (by decide)

attribute [irreducible] T Seg Kid Kids OptK Mems Solid

/-- Hypotheses about kids. -/
macro "wkh" : tactic => `(tactic| with_reducible first
  | assumption
  | (refine Kid_le (by assumption) ?_ ?_ <;> decide)
  | (refine Kids_le (by assumption) ?_ ?_ <;> decide)
  | (refine OptK_le (by assumption) ?_ ?_ <;> decide)
  | (refine Mems_le (by assumption) ?_ ?_ <;> decide)
  | exact OptK_get ‹_›
  | (refine Kid_le (OptK_get ‹_›) ?_ ?_ <;> decide)
  | (refine Kid_le (Kid_last (by assumption) (by assumption)) ?_ ?_ <;> decide))

/-- One step of the machine. -/
syntax "wts" : tactic
/-- Kids of a list. -/
syntax "wks" : tactic

macro_rules
  | `(tactic| wks) => `(tactic| first
    | wkh
    | with_reducible exact Kids_nil
    | ((with_reducible refine Kids_cons ?_ ?_) <;> wks)
    | ((with_reducible refine Kids_append ?_ ?_) <;> wks)
    | ((with_reducible refine Kids_opt ?_); wkh)
    | ((with_reducible refine Kids_ite ?_ ?_) <;> wks)
    | ((with_reducible refine Kid_of ?_); (repeat' wts); done))

macro_rules
  | `(tactic| wts) => `(tactic| first
    | ((with_reducible refine T_nil ?_); decide)
    | ((with_reducible refine T_kid (by first | with_reducible assumption | with_reducible exact OptK_get ‹_›) ?_ ?_); (· decide))
    | ((with_reducible refine T_solid ?_ ?_ ?_); (· with_reducible assumption); (· decide))
    | ((with_reducible refine T_tS ?_ ?_); (· decide))
    | ((with_reducible refine T_tU ?_ ?_); (· decide))
    | ((with_reducible refine T_kindt ?_ ?_); (· decide))
    | ((with_reducible refine T_bracketBody ?_ ?_ ?_); (· wkh); (· decide))
    | ((with_reducible refine T_declarators ?_ ?_ ?_); (· wkh); (· decide))
    | ((with_reducible refine T_chain ?_ ?_ ?_ ?_); (· wkh); (· decide))
    | ((with_reducible refine T_wcp (b := .U) ?_ ?_ ?_ ?_); (· decide); (· decide))
    | ((with_reducible refine T_wcpa (b := .U) ?_ ?_ ?_ ?_); (· decide); (· decide))
    | ((with_reducible refine T_spaced ?_ ?_ ?_); (· wkh); (· decide))
    | ((with_reducible refine T_spacedL ?_ ?_ ?_); (· wkh); (· decide))
    | ((with_reducible refine T_annotated ?_ ?_ ?_); (· wkh); (· decide); (· decide))
    | ((with_reducible refine T_tL ?_ ?_); (· decide))
    | ((with_reducible refine T_tR ?_ ?_); (· decide))
    | ((with_reducible refine T_tLR ?_ ?_); (· decide))
    | ((with_reducible refine T_nilp ?_))
    | ((with_reducible refine T_txtR ?_ ?_); (· decide))
    | ((with_reducible refine T_txtLR ?_ ?_); (· decide))
    | ((with_reducible refine T_val ?_ ?_); (· decide))
    | ((with_reducible refine T_nl ?_ ?_); (· decide))
    | ((with_reducible refine T_soft ?_ ?_); (· decide))
    | (with_reducible refine T_maybe ?_)
    | ((with_reducible refine T_bwcS ?_ ?_ ?_); (· decide); (· (repeat' wts); done))
    | ((with_reducible refine T_bwcU ?_ ?_ ?_); (· decide); (· (repeat' wts); done))
    | ((with_reducible refine T_bwcpS ?_ ?_ ?_); (· decide); (· (repeat' wts); done))
    | ((with_reducible refine T_bwcpU ?_ ?_ ?_); (· decide))
    | ((with_reducible refine T_paren ?_ ?_ ?_); (· wks); (· decide))
    | ((with_reducible refine T_inter ?_ ?_ ?_ ?_); (· wks); (· decide); (· decide))
    | ((with_reducible refine T_sAfter ?_ ?_ ?_ ?_); (· wks); (· decide); (· decide))
    | ((with_reducible refine T_sAfter' ?_ ?_ ?_ ?_); (· wks); (· decide); (· decide))
    | ((with_reducible refine T_sPlain ?_ ?_ ?_ ?_); (· wks); (· decide); (· decide))
    | ((with_reducible refine T_surroundBody ?_ ?_ ?_); (· wkh); (· decide))
    | ((with_reducible refine T_interBody ?_ ?_ ?_); (· wkh); (· decide))
    | ((with_reducible refine T_concat_last ?_))
    | ((with_reducible refine T_concat ?_); simp only [List.cons_append, List.nil_append, List.append_assoc])
    | (with_reducible refine T_group ?_)
    | (with_reducible refine T_indent ?_)
    | (with_reducible refine T_dedent ?_)
    | (with_reducible refine T_force ?_)
    | (with_reducible refine T_pre ?_)
    | (with_reducible refine T_post ?_)
    | ((with_reducible refine T_dangling ?_ ?_); (· decide))
    | (with_reducible refine T_rootDangling ?_)
    | ((with_reducible refine T_ifDangling (b := .S) ?_ ?_ ?_); (· (repeat' wts); done); (· (repeat' wts); done))
    | ((with_reducible refine T_ifDangling (b := .U) ?_ ?_ ?_); (· (repeat' wts); done); (· (repeat' wts); done))
    | ((with_reducible refine T_optS (by assumption) ?_ ?_); (· decide))
    | ((with_reducible refine T_optU (by assumption) ?_ ?_ ?_ ?_); (· decide); (· decide); (· decide))
    | (with_reducible refine T_optL ?_)
    | ((with_reducible refine T_kidsS ?_ ?_ ?_); (· wkh); (· decide))
    | ((with_reducible refine T_kidsU ?_ ?_ ?_); (· wkh); (· decide))
    | ((with_reducible refine T_iteL ?_ ?_))
    | ((with_reducible refine T_ite ?_ ?_) <;> simp only [List.cons_append, List.nil_append, List.append_assoc])
    | ((with_reducible refine T_ite1 ?_ ?_) <;> simp only [List.cons_append, List.nil_append, List.append_assoc])
    | ((with_reducible refine T_seg ?_ ?_ ?_); (· assumption); (· decide))
    | ((with_reducible refine T_segL ?_ ?_ ?_); (· assumption); (· decide); (· decide))
    | ((with_reducible refine T_guard ?_); split)
    | (simp only [List.cons_append, List.nil_append, List.append_nil, List.append_assoc]))

/-- Binds of a constructor. -/
macro "wpb" E:ident hn:ident : tactic => `(tactic| first
  | ((with_reducible refine P_bind (Env.recP $E _ _ ?_ ?_) (fun _ _ _ => ?_)); (· inn); (· rfl))
  | ((with_reducible refine P_bind (Env.optP $E ?_ ?_) (fun _ _ _ => ?_)); (· ino); (· rfl))
  | ((with_reducible refine P_bind (Env.members $E ?_ ?_) (fun _ _ _ => ?_)); (· inls); (· rfl))
  | ((with_reducible refine P_bind (Env.mapP $E ?_ ?_) (fun _ _ _ => ?_)); (· inls); (· rfl))
  | ((with_reducible refine P_bind (Env.dispatchs $E (s := .S) (e := .U) ?_ ?_) (fun _ _ _ => ?_)); (· inls); (· decide))
  | with_reducible refine P_bind (Env.check $E) (fun _ _ _ => ?_)
  | ((with_reducible refine P_bind (Env.cByK $E ?_) (fun _ _ _ => ?_)); (· inn))
  | ((with_reducible refine P_bind (Env.cByN $E ?_) (fun _ _ _ => ?_)); (· inn))
  | ((with_reducible refine P_bind (Env.firstC $E ?_) (fun _ _ _ => ?_)); (· inn))
  | ((with_reducible refine P_bind (Env.csByK $E ?_) (fun _ _ _ => ?_)); (· inn))
  | ((with_reducible refine P_bind (Env.csByN $E ?_) (fun _ _ _ => ?_)); (· inn))
  | ((with_reducible refine P_bind (Env.nextNamed $E ?_) (fun _ _ _ => ?_)); (· inn))
  | with_reducible exact P_err
  | ((with_reducible refine P_mono (Env.recP $E _ _ ?_ ?_) (fun _ h => Kid_le h ?_ ?_)); (· inn); (· rfl); (· decide); (· decide))
  | ((with_reducible refine P_mono (Env.dispatch $E (s := .S) (e := .U) ?_ ?_) (fun _ h => Kid_le h ?_ ?_)); (· inn); (· decide); (· decide); (· decide))
  | ((with_reducible refine P_mono (Env.keyword $E) (fun _ h => Kid_le h ?_ ?_)); (· decide); (· decide))
  | with_reducible refine P_bind (Q := Kid .S .U) ?_ (fun _ _ _ => ?_)
  | with_reducible refine P_bind (Q := Seg) ?_ (fun _ _ _ => ?_)
  | with_reducible refine P_bind (Q := fun _ => True) P_any (fun _ _ _ => ?_)
  | ((with_reducible refine P_ok (Kid_of ?_)))
  | ((with_reducible refine P_ok (Seg_of ?_)))
  | ((with_reducible refine P_pure (Kid_of ?_)))
  | ((with_reducible refine P_guard ?_); split))

theorem Env.oper {root : Node} {rec : Rec} (E : Env root rec) {n : Loc} (hn : In root n)
    (hk : ["unary_expression", "update_expression"].contains n.kind = true) : P (n.cvalueByN "operator") Solid := by
  refine Lines.P_of fun s hs => ?_
  unfold Loc.cvalueByN at hs
  split at hs
  · rename_i c hc; cases hs; exact E.opers n c hn hk hc
  · cases hs
theorem Env.operN {root : Node} {rec : Rec} (E : Env root rec) {n : Loc} (hn : In root n)
    (hk : ["unary_expression", "update_expression"].contains n.kind = true) : P (n.cByN "operator") (fun l => Solid l.value) := by
  refine Lines.P_of fun s hs => ?_
  unfold Loc.cByN at hs
  split at hs
  · rename_i c hc; cases hs; exact E.opers n _ hn hk hc
  · cases hs

/-- A constructor. -/
macro "wtt" E:ident hn:ident : tactic => `(tactic| (
  repeat' wpb $E $hn
  all_goals try simp only [startOf, endOf, Prog.groupConcat, Prog.groupIndent, Prog.groupIndentConcat, Prog.groupSurround] at *
  all_goals try simp only [List.cons_append, List.nil_append, List.append_assoc]
  all_goals try repeat' wts))

end Afmt.Words
