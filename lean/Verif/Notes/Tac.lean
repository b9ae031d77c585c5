import Verif.Notes.Marks
import Verif.Lines.Tac
import Verif.Gram.C0

/-!
# Line breaks of programs with comments: rules for the abstract machine

The rules of `Verif.Lines.Tac` for trees with comments between the members of bodies. A program may be preceded by the
comments before its node and followed by the comments after it.
-/

set_option linter.unusedSectionVars false
set_option linter.unusedSimpArgs false
set_option linter.unusedVariables false

namespace Afmt.Notes
open Afmt.Prog (Ins)
open Afmt.Gram (charsOf)
open Afmt.Lines (clean cleanL cleanR clean_edge clean_plain Edge P P_bind P_ok P_pure P_err P_any P_mono Tidy InL InO fullKinds TidyTree
  InL_vec InL_named InL_try InL_filter InL_drop InL_tail InL_head InL_last InO_K InO_N InO_first mapR_ne ink_edge
  Tidy_lower Tidy_upper Tidy_quote Tidy_colon P_get P_of P_guard)

/-- The comments of the tree with their roles. -/
class Src where
  ro : Comment → Role
  cm : CMap
  roles : Roles ro cm
  sounds : Sounds ro cm
  once : ∀ id, ∀ c ∈ (bucketOf cm id).post.tail, (ro c).lead ≠ .eol

variable [K : Src]

/-- No comments belong to the node. -/
def Quiet [K : Src] (i : Nat) : Prop := bucketOf K.cm i = Bucket.empty

/-- The state after the comments behind a node. -/
def pst [K : Src] (i : Nat) : St := if (bucketOf K.cm i).post = [] then .I else .P

/-- Running the machine over the programs from `a` ends at most in `e`. -/
def T [K : Src] (a : St) (ps : List Prog) (e : St) : Prop := run a (symss K.ro K.cm ps) ≤ e

theorem pst_ne {i : Nat} : pst i ≠ .bad := by unfold pst; split <;> decide
theorem pst_le {i : Nat} : pst i ≤ .P := by unfold pst; split <;> decide
theorem pst_quiet {i : Nat} (h : Quiet i) : pst i = .I := by unfold pst; rw [h]; rfl
theorem zero_le {e : St} : St.I ≤ e := Nat.zero_le _
theorem le_G {a : St} (h : a ≠ .bad) : a ≤ .G := by cases a <;> first | decide | exact absurd rfl h
theorem tx_I {a : St} (h : a ≠ .bad) : tx a = .I := by cases a <;> first | rfl | exact absurd rfl h

theorem cleanL_flat {s : Str} (h : '\n' ∉ s) : cleanL s = true := by
  induction s with
  | nil => rfl
  | cons c s ih =>
    have h1 : c ≠ '\n' := fun e => h (by simp [e])
    have h2 : '\n' ∉ s := fun e => h (by simp [e])
    simp [cleanL, h1, ih h2]
theorem clean_flat {s : Str} (h : '\n' ∉ s) : clean s = true := by
  unfold clean cleanR
  rw [Bool.and_eq_true]
  exact ⟨cleanL_flat h, cleanL_flat (by simpa using h)⟩

/-- Lines after the first one. -/
theorem run_lineSyms : ∀ {ls : List Str} {a : St}, (∀ l ∈ ls, '\n' ∉ l) → (∃ l, ls.getLast? = some l ∧ ink l ≠ []) → a ≤ .F →
    run a (lineSyms ls) = .I
  | [], _, _, ⟨_, h, _⟩, _ => by cases h
  | [l], a, hl, ⟨l', h, hi⟩, ha => by
    obtain rfl : l = l' := Option.some.inj h
    rw [lineSyms, run, run, step, if_pos (clean_flat (hl l (by simp))), if_neg hi]
    exact tx_I (by rintro rfl; exact absurd ha (by decide))
  | l :: l' :: ls, a, hl, ⟨m, h, hi⟩, ha => by
    rw [lineSyms, run, run]
    · refine run_lineSyms (fun x hx => hl x (by simp [List.mem_cons.1 hx])) ⟨m, by simpa [List.getLast?_cons_cons] using h, hi⟩ ?_
      rw [step, if_pos (clean_flat (hl l (by simp)))]
      split
      · revert ha; cases a <;> decide
      · rw [tx_I (by rintro rfl; exact absurd ha (by decide))]; decide
    · simp

/-- The text of a comment. -/
theorem run_text {c : Comment} (h : Sound c) {a : St} (ha : a ≠ .bad) : run a (textSyms c) ≤ .P := by
  obtain ⟨⟨l, ls, e, hi⟩, hl, hn⟩ := h
  unfold textSyms
  unfold linesOf at e hl hn
  cases ht : c.type with
  | line =>
    rw [ht] at e hn
    dsimp only at e hn
    obtain ⟨rfl, rfl⟩ := List.cons.inj e
    dsimp only
    rw [run, run, run, step, if_pos (clean_flat (hn _ (by simp))), if_neg hi, tx_I ha]
    decide
  | block =>
    rw [ht] at e hn hl
    dsimp only at e hn hl ⊢
    rw [e] at hl hn ⊢
    cases ls with
    | nil =>
      rw [lineSyms, run, run, step, if_pos (clean_flat (hn l (by simp))), if_neg hi, tx_I ha]
      decide
    | cons l' ls =>
      rw [lineSyms, run, run, step, if_pos (clean_flat (hn l (by simp))), if_neg hi, tx_I ha]
      · rw [run_lineSyms (fun x hx => hn x (by simp [List.mem_cons.1 hx])) (by simpa [List.getLast?_cons_cons] using hl) (by decide)]
        decide
      · simp

theorem sp_P {a : St} (h : a ≤ .P) : sp a = .S := by revert h; cases a <;> decide

/-- The comments before a node. -/
theorem run_pre {ro : Comment → Role} : ∀ {cs : List Comment} {a : St} {first : Bool}, PreRoles ro first cs → (∀ c ∈ cs, Sound c) →
    a ≠ .bad → (first = false → a ≤ .P) → run a (cs.flatMap (fun c => comSyms (ro c) c)) ≤ .G
  | [], _, _, _, _, ha, _ => le_G ha
  | c :: cs, a, first, ⟨_, _, h1, h2, h3⟩, hs, ha, hf => by
    rw [List.flatMap_cons, run_append]
    unfold comSyms
    rw [run_append, h1, h2]
    have ht : run a (match (if first then Lead.none else Lead.sep c.meta'.hasEmptyLineAbove) with
        | .none => textSyms c | .sep b => .sep b :: textSyms c | .eol => [.eol c.value, .br .cut]) ≤ .P := by
      cases first with
      | true => exact run_text (hs c (by simp)) ha
      | false =>
        have : sp a = .S := sp_P (hf rfl)
        show run (sp a) (textSyms c) ≤ .P
        rw [this]
        exact run_text (hs c (by simp)) (by decide)
    generalize run a _ = b at ht
    cases cs with
    | nil =>
      simp only [if_true, List.flatMap_nil, run]
      show sp b ≤ .G
      rw [sp_P ht]; decide
    | cons c' cs =>
      simp only [if_neg (List.cons_ne_nil c' cs), run]
      exact run_pre h3 (fun x hx => hs x (by simp [List.mem_cons.1 hx])) (by rintro rfl; exact absurd ht (by decide)) (fun _ => ht)

/-- The comments after a node. -/
theorem run_post {ro : Comment → Role} : ∀ {cs : List Comment} {a : St}, PostRoles ro cs → (∀ c ∈ cs, Sound c) →
    a ≤ .P → (∀ c ∈ cs, (ro c).lead = .eol → a = .I) → (∀ c ∈ cs.tail, (ro c).lead ≠ .eol) →
    run a (cs.flatMap (fun c => comSyms (ro c) c)) ≤ .P
  | [], _, _, _, ha, _, _ => ha
  | c :: cs, a, ⟨_, h1, h2, hl, h3⟩, hs, ha, hf, ho => by
    rw [List.flatMap_cons, run_append]
    unfold comSyms
    rw [run_append, h1, h2]
    have ht : run a (match (if c.meta'.hasLeadingContent then Lead.eol else Lead.sep c.meta'.hasEmptyLineAbove) with
        | .none => textSyms c | .sep b => .sep b :: textSyms c | .eol => [.eol c.value, .br .cut]) ≤ .P := by
      cases hh : c.meta'.hasLeadingContent with
      | true =>
        rw [hh] at h2
        have := hf c (by simp) (by rw [h2]; rfl)
        subst this
        have hc := hl hh
        obtain ⟨⟨l, ls, e, hi⟩, -, hn⟩ := hs c (by simp)
        unfold linesOf at e hn
        rw [hc] at e hn
        dsimp only at e hn
        obtain ⟨rfl, rfl⟩ := List.cons.inj e
        have hn := hn c.value (by simp)
        show run (step .I (.eol c.value)) [.br .cut] ≤ .P
        rw [step, if_pos ⟨rfl, clean_flat hn, hi, hn⟩]
        decide
      | false =>
        have : sp a = .S := sp_P ha
        show run (sp a) (textSyms c) ≤ .P
        rw [this]
        exact run_text (hs c (by simp)) (by decide)
    generalize run a _ = b at ht
    refine run_post (a := b) h3 (fun x hx => hs x (by simp [hx])) ht (fun x hx e => absurd e (ho x hx)) ?_
    intro x hx
    exact ho x (List.mem_of_mem_tail hx)

theorem T_pre {a e : St} {i : Nat} {qs : List Prog} (ha : a ≠ .bad) (h : T .G qs e) : T a (.pre i :: qs) e := by
  unfold T at *
  rw [symss, syms, run_append]
  refine St.le_trans (run_mono ?_ _) h
  exact run_pre (K.roles.pre i) (fun c hc => (K.sounds i c (by simp [hc])).1) ha nofun

theorem T_pre' {a e : St} {i : Nat} {qs : List Prog} (hi : Quiet i) (h : T a qs e) : T a (.pre i :: qs) e := by
  unfold T at *
  rw [symss, syms, hi]
  exact h

theorem T_post {a e : St} {i : Nat} {qs : List Prog} (ha : a = .I) (h : T (pst i) qs e) : T a (.post i :: qs) e := by
  subst ha
  unfold T at *
  rw [symss, syms, run_append]
  refine St.le_trans (run_mono ?_ _) h
  unfold pst
  split
  · rename_i h; rw [h]; exact St.le_refl _
  · exact run_post (K.roles.post i) (fun c hc => (K.sounds i c (by simp [hc])).1) (by decide) (fun _ _ _ => rfl) (K.once i)

theorem T_post' {a e : St} {i : Nat} {qs : List Prog} (hi : Quiet i) (h : T a qs e) : T a (.post i :: qs) e := by
  unfold T at *
  rw [symss, syms, hi]
  exact h
/-- From every state the program ends at most in `e`. -/
def Kid (e : St) (p : Prog) : Prop := T .G [p] e
/-- `Kid` for all programs. -/
def Kids (e : St) (ps : List Prog) : Prop := ∀ p ∈ ps, Kid e p
/-- `Kid` for the program, if any. -/
def OptK (e : St) (o : Option Prog) : Prop := ∀ p, o = some p → Kid e p
/-- The larger state. -/
def up (a b : St) : St := if a ≤ b then b else a

theorem T_nil {a e : St} (h : a ≤ e) : T a [] e := h
theorem T_app {a b e : St} {ps qs : List Prog} (h : T a ps b) (h' : T b qs e) : T a (ps ++ qs) e := by
  unfold T at *
  rw [symss_append, run_append]
  exact St.le_trans (run_mono h _) h'
theorem T_cons {a b e : St} {p : Prog} {qs : List Prog} (h : T a [p] b) (h' : T b qs e) : T a (p :: qs) e :=
  T_app (ps := [p]) h h'
theorem T_start {a a' e : St} {ps : List Prog} (h : a ≤ a') (h' : T a' ps e) : T a ps e := St.le_trans (run_mono h _) h'
theorem T_end {a e e' : St} {ps : List Prog} (h : T a ps e) (h' : e ≤ e') : T a ps e' := St.le_trans h h'
theorem T_concat {a e : St} {ps qs : List Prog} (h : T a (ps ++ qs) e) : T a (.concat ps :: qs) e := by
  unfold T at *; rw [symss_append] at h; rw [symss, syms]; exact h
theorem T_concat_last {a e : St} {ps : List Prog} (h : T a ps e) : T a [.concat ps] e := T_concat (by rwa [List.append_nil])
theorem T_group {a e : St} {p : Prog} {qs : List Prog} (h : T (fl a) (p :: qs) e) : T a (.group p :: qs) e := by
  unfold T at *; rw [symss] at h; rw [symss, syms]; exact h
theorem T_indent {a e : St} {p : Prog} {qs : List Prog} (h : T a (p :: qs) e) : T a (.indent p :: qs) e := by
  unfold T at *; rw [symss] at h; rw [symss, syms]; exact h
theorem T_dedent {a e : St} {p : Prog} {qs : List Prog} (h : T a (p :: qs) e) : T a (.dedent p :: qs) e := by
  unfold T at *; rw [symss] at h; rw [symss, syms]; exact h
theorem T_ifDangling {a e : St} {i : Nat} {p q : Prog} {qs : List Prog} (h : T a (q :: qs) e) :
    T a (.ifDangling i p q :: qs) e := by
  unfold T at *; rw [symss] at h; rw [symss, syms]; exact h


theorem T_rootDangling {a e : St} {i : Nat} {qs : List Prog} (h : T a qs e) : T a (.rootDangling i :: qs) e := by
  unfold T at *; rw [symss, syms]; exact h
theorem T_dangling {a e : St} {i : Nat} {qs : List Prog} (h : T a qs e) : T a (.dangling i :: qs) e := by
  unfold T at *; rw [symss, syms]; exact h
theorem T_force {a e : St} {qs : List Prog} (h : T a qs e) : T a (.forceBreak :: qs) e := by
  unfold T at *; rw [symss, syms]; exact h
theorem T_nl {a e : St} {qs : List Prog} (h : T (brk a) qs e) : T a (.nl :: qs) e := by
  unfold T at *; rw [symss, syms]; exact h
theorem T_soft {a e : St} {qs : List Prog} (h : T (brk a) qs e) : T a (.softline :: qs) e := by
  unfold T at *; rw [symss, syms]; exact h
theorem T_maybe {a e : St} {qs : List Prog} (h : T (brk a) qs e) : T a (.maybeline :: qs) e := by
  unfold T at *; rw [symss, syms]; exact h
theorem T_sep {a e : St} {b : Bool} {qs : List Prog} (h : T (sp a) qs e) : T a (.sep b :: qs) e := by
  unfold T at *; rw [symss, syms]; exact h

/-- A visible text. -/
theorem T_ink {a e : St} {s : Str} {qs : List Prog} (ha : a ≠ .bad) (hc : clean s = true) (hi : ink s ≠ [])
    (h : T .I qs e) : T a (.txt s :: qs) e := by
  unfold T at *
  rw [symss, syms, List.singleton_append, run, step, if_pos hc, if_neg hi, tx_I ha]
  exact h
/-- Any text. -/
theorem T_txt {a e : St} {s : Str} {qs : List Prog} (ha : a ≠ .bad) (hc : clean s = true) (h : T (fl a) qs e) :
    T a (.txt s :: qs) e := by
  unfold T at *
  rw [symss, syms, List.singleton_append, run, step, if_pos hc]
  split
  · exact h
  · rw [tx_I ha]
    exact St.le_trans (run_mono (show St.I ≤ fl a from Nat.zero_le _) _) h
theorem T_punct {a e : St} {p : Punc} {qs : List Prog} (hp : Quiet p.id) (ha : a ≠ .bad) (h : T .I qs e) : T a (.punct p :: qs) e := by
  unfold T at *
  rw [symss, syms, hp, if_pos rfl, List.singleton_append, run, step]
  have h1 : clean p.text = true := by unfold Punc.text; split <;> decide
  have h2 : ink p.text ≠ [] := by unfold Punc.text; split <;> decide
  rw [if_pos h1, if_neg h2, tx_I ha]
  exact h
/-- The punctuation has no comments. -/
def QuietO [K : Src] (o : Option Punc) : Prop := ∀ p, o = some p → Quiet p.id
theorem quietO_none : QuietO none := nofun
theorem T_punctOpt {a e : St} {o : Option Punc} {qs : List Prog} (hp : QuietO o) (ha : a ≠ .bad) (h : T a qs e) :
    T a (Prog.punctOpt o ++ qs) e := by
  cases o with
  | none => exact h
  | some p => exact T_punct (hp p rfl) ha (T_start (show St.I ≤ a from Nat.zero_le _) h)
theorem T_kid {a b e : St} {p : Prog} {qs : List Prog} (hk : Kid b p) (ha : a ≠ .bad) (h : T b qs e) : T a (p :: qs) e :=
  T_cons (T_start (le_G ha) hk) h
theorem up_left (a b : St) : a ≤ up a b := by unfold up; split <;> first | assumption | exact St.le_refl _
theorem up_right (a b : St) : b ≤ up a b := by cases a <;> cases b <;> decide
theorem T_opt {a b e : St} {o : Option Prog} {qs : List Prog} (hk : OptK b o) (ha : a ≠ .bad) (h : T (up a b) qs e) :
    T a (Prog.opt o ++ qs) e := by
  cases o with
  | none => exact T_start (up_left _ _) h
  | some p => exact T_kid (hk p rfl) ha (T_start (up_right _ _) h)
/-- Kids one after the other. -/
theorem T_kids {a b e : St} {ps qs : List Prog} (hk : Kids b ps) (ha : a ≠ .bad) (hb : b ≠ .bad) (h : T (up a b) qs e) :
    T a (ps ++ qs) e := by
  have key : ∀ ps a, a ≠ .bad → Kids b ps → a ≤ up a b → T a ps (up a b) := by
    intro ps
    induction ps with
    | nil => intro a _ _ h; exact h
    | cons p ps ih =>
      intro a ha hk _
      refine T_kid (hk p (by simp)) ha ?_
      have := ih b hb (fun q hq => hk q (by simp [hq])) (up_left _ _)
      refine T_end this ?_
      have : up b b = b := by unfold up; split <;> rfl
      rw [this]; exact up_right _ _
  exact T_app (key ps a ha hk (up_left _ _)) h
theorem T_ite {a e : St} {c : Prop} [Decidable c] {ps ps' qs : List Prog} (h : T a (ps ++ qs) e) (h' : T a (ps' ++ qs) e) :
    T a ((if c then ps else ps') ++ qs) e := by split <;> assumption
theorem T_ite1 {a e : St} {c : Prop} [Decidable c] {p p' : Prog} {qs : List Prog} (h : T a (p :: qs) e) (h' : T a (p' :: qs) e) :
    T a ((if c then p else p') :: qs) e := by split <;> assumption
mutual
/-- A program without comments and punctuation. -/
def bare : Prog → Bool
  | .pre _ | .post _ | .punct _ => false
  | .concat ps => bares ps
  | .group p | .indent p | .dedent p => bare p
  | .ifDangling _ _ q => bare q
  | _ => true
/-- Programs without comments and punctuation. -/
def bares : List Prog → Bool
  | [] => true
  | p :: ps => bare p && bares ps
end

/-- Nothing is said about comments. -/
def ro0 (_ : Comment) : Role := ⟨.none, none⟩

mutual
theorem bare_syms {ro : Comment → Role} {cm : CMap} : ∀ {p : Prog}, bare p = true → syms ro cm p = syms ro0 [] p
  | .txt _, _ | .nl, _ | .softline, _ | .maybeline, _ | .forceBreak, _ | .sep _, _ | .dangling _, _ | .rootDangling _, _ | .fail _, _ => by
    simp only [syms]
  | .pre _, h | .post _, h | .punct _, h => by cases h
  | .concat ps, h => by rw [syms, syms]; exact bares_syms h
  | .group p, h => by rw [syms, syms]; exact congrArg _ (bare_syms h)
  | .indent p, h => by rw [syms, syms]; exact bare_syms h
  | .dedent p, h => by rw [syms, syms]; exact bare_syms h
  | .ifDangling _ p q, h => by rw [syms, syms]; exact bare_syms h
theorem bares_syms {ro : Comment → Role} {cm : CMap} : ∀ {ps : List Prog}, bares ps = true → symss ro cm ps = symss ro0 [] ps
  | [], _ => by simp only [symss]
  | p :: ps, h => by
    simp only [bares, Bool.and_eq_true] at h
    rw [symss, symss, bare_syms h.1, bares_syms h.2]
end

/-- `T` for programs without comments and punctuation. -/
def T0 (a : St) (ps : List Prog) (e : St) : Prop := bares ps = true ∧ run a (symss ro0 [] ps) ≤ e
instance (a : St) (ps : List Prog) (e : St) : Decidable (T0 a ps e) :=
  inferInstanceAs (Decidable (bares ps = true ∧ run a (symss ro0 [] ps) ≤ e))
theorem T_of0 {a e : St} {ps : List Prog} (h : T0 a ps e) : T a ps e := by
  unfold T; rw [bares_syms h.1]; exact h.2

/-- The separator leads to no bad state. -/
def SepOk (e : St) (x : Ins) : Prop := T0 e x.progs .G

instance (e : St) (x : Ins) : Decidable (SepOk e x) := inferInstanceAs (Decidable (T0 e x.progs .G))
theorem T_interParts {e : St} {x : Ins} (hx : SepOk e x) : ∀ {ps : List Prog} {a : St}, a ≠ .bad → Kids e ps → ps ≠ [] →
    T a (Prog.intersperseParts x ps) e
  | [], a, _, _, h => absurd rfl h
  | [p], a, ha, hk, _ => by
    rw [Prog.intersperseParts]
    exact T_kid (hk p (by simp)) ha (St.le_refl _)
  | p :: q :: ps, a, ha, hk, _ => by
    rw [Prog.intersperseParts]
    · refine T_kid (hk p (by simp)) ha (T_app (T_of0 hx) ?_)
      exact T_interParts hx (by decide) (fun r hr => hk r (by simp [List.mem_cons.1 hr])) (by simp)
    · simp
theorem T_inter {a b e : St} {x : Ins} {ps qs : List Prog} (hk : Kids b ps) (ha : a ≠ .bad) (hx : SepOk b x)
    (h : T (up (fl a) b) qs e) : T a (Prog.intersperse ps x :: qs) e := by
  cases ps with
  | nil => exact T_txt ha rfl (T_start (up_left _ _) h)
  | cons p ps =>
    exact T_concat (T_app (T_interParts hx ha hk (by simp)) (T_start (up_right _ _) h))
theorem T_inter1 {a b e : St} {x : Ins} {p : Prog} {ps qs : List Prog} (hk : Kids b (p :: ps)) (ha : a ≠ .bad) (hx : SepOk b x)
    (h : T b qs e) : T a (Prog.intersperse (p :: ps) x :: qs) e :=
  T_concat (T_app (T_interParts hx ha hk (by simp)) h)
theorem T_interNe {a b e : St} {x : Ins} {ps qs : List Prog} (hk : Kids b ps) (hne : ps ≠ []) (ha : a ≠ .bad) (hx : SepOk b x)
    (h : T b qs e) : T a (Prog.intersperse ps x :: qs) e := by
  cases ps with
  | nil => exact absurd rfl hne
  | cons p ps => exact T_inter1 hk ha hx h
/-- `surround` with visible opening and closing texts. -/
theorem T_surround {a b e : St} {x : Ins} {o c : Str} {so pc : Option Prog} {ps qs : List Prog} (hk : Kids b ps)
    (ha : a ≠ .bad) (hx : SepOk b x) (ho : clean o = true) (hoi : ink o ≠ []) (hc : clean c = true) (hci : ink c ≠ [])
    (h1 : T0 .I ((Prog.opt so).map .indent) .G) (h2 : T0 b (Prog.opt pc) .G)
    (h : T .I qs e) :
    T a (Prog.surround ps x ⟨none, some o, so⟩ ⟨pc, some c, none⟩ :: qs) e := by
  cases ps with
  | nil =>
    rw [Prog.surround]
    refine T_concat (T_ink ha ho hoi (T_ink (by decide) hc hci h))
  | cons p ps =>
    rw [Prog.surround]
    · refine T_concat ?_
      simp only [Prog.opt, Prog.optT, List.nil_append, List.append_nil, List.append_assoc, List.cons_append]
      refine T_ink ha ho hoi (T_app (T_of0 h1) (T_indent (T_inter1 hk (by decide) hx (T_app (T_of0 h2) (T_ink (by decide) hc hci h)))))
    · simp
/-! ### Bodies -/
/-- Members. -/
def Mems (e : St) (ms : List (Bool × Prog)) : Prop := ∀ m ∈ ms, Kid e m.2
theorem T_bodyParts {b : St} (hb : b ≤ .P) : ∀ {ms : List (Bool × Prog)} {a : St}, a ≠ .bad → Mems b ms → ms ≠ [] →
    T a (Prog.bodyParts ms) b
  | [], a, _, _, h => absurd rfl h
  | [(t, p)], a, ha, hk, _ => by
    rw [Prog.bodyParts]
    exact T_kid (hk (t, p) (by simp)) ha (St.le_refl _)
  | (tr, p) :: q :: ms, a, ha, hk, _ => by
    rw [Prog.bodyParts]
    · refine T_kid (hk (tr, p) (by simp)) ha (T_sep ?_)
      have h1 : sp b = .S := by cases b <;> first | rfl | exact absurd hb (by decide)
      rw [h1]
      exact T_bodyParts hb (by decide) (fun r hr => hk r (by simp [List.mem_cons.1 hr])) (by simp)
    · simp
theorem T_interBody {a b e : St} {ms : List (Bool × Prog)} {qs : List Prog} (hk : Mems b ms) (ha : a ≠ .bad) (hb : b ≤ .P)
    (h : T (up (fl a) b) qs e) : T a (Prog.intersperseBody ms :: qs) e := by
  cases ms with
  | nil => exact T_txt ha rfl (T_start (up_left _ _) h)
  | cons m ms =>
    exact T_concat (T_app (T_bodyParts hb ha hk (by simp)) (T_start (up_right _ _) h))
theorem T_surroundBody {a b e : St} {ms : List (Bool × Prog)} {qs : List Prog} (hk : Mems b ms) (ha : a ≠ .bad) (hb : b ≤ .P)
    (h : T .I qs e) : T a (Prog.surroundBody ms :: qs) e := by
  cases ms with
  | nil =>
    exact T_concat (T_ink ha (by decide) (by decide) (T_nl (T_ink (by decide) (by decide) (by decide) h)))
  | cons m ms =>
    rw [Prog.surroundBody]
    · refine T_concat (T_ink ha (by decide) (by decide) (T_indent (T_nl (T_indent ?_))))
      rw [Prog.intersperseBody]
      · refine T_concat (T_app (T_bodyParts hb (by decide) hk (by simp)) (T_nl (T_ink ?_ (by decide) (by decide) h)))
        revert hb; cases b <;> decide
      · simp
    · simp
/-! ### Texts of the tree -/
theorem T_t {a e : St} {s : String} {qs : List Prog} (ha : a ≠ .bad) (hc : clean s.toList = true) (hi : ink s.toList ≠ [])
    (h : T .I qs e) : T a (Prog.t s :: qs) e := T_ink ha hc hi h
theorem T_tb {a e : St} {s : String} {qs : List Prog} (ha : a ≠ .bad) (hc : clean s.toList = true)
    (h : T (fl a) qs e) : T a (Prog.t s :: qs) e := T_txt ha hc h
theorem T_tL {a e : St} {s : String} {qs : List Prog} (ha : a ≠ .bad) (hc : clean (' ' :: s.toList) = true)
    (hi : ink (' ' :: s.toList) ≠ []) (h : T .I qs e) : T a (Prog.tL s :: qs) e := T_ink ha hc hi h
theorem T_tR {a e : St} {s : String} {qs : List Prog} (ha : a ≠ .bad) (hc : clean (s.toList ++ [' ']) = true)
    (hi : ink (s.toList ++ [' ']) ≠ []) (h : T .I qs e) : T a (Prog.tR s :: qs) e := T_ink ha hc hi h
theorem T_tLR {a e : St} {s : String} {qs : List Prog} (ha : a ≠ .bad) (hc : clean (' ' :: (s.toList ++ [' '])) = true)
    (hi : ink (' ' :: (s.toList ++ [' '])) ≠ []) (h : T .I qs e) : T a (Prog.tLR s :: qs) e := T_ink ha hc hi h
/-! ### Wrappers -/
theorem T_bwcp {a e : St} {n : Loc} {ps qs : List Prog} (hp : QuietO (Punc.from n)) (ha : a ≠ .bad) (h : T .G ps .I) (h' : T (pst n.id) qs e) :
    T a (Prog.New.bwcp n ps :: qs) e := by
  refine T_concat ?_
  simp only [List.cons_append, List.nil_append, List.append_assoc]
  exact T_pre ha (T_ifDangling (T_concat (T_app h (T_ifDangling (T_post rfl (T_punctOpt hp pst_ne h'))))))

/-- A node without comments. -/
theorem T_bwcp' {a b e : St} {n : Loc} {ps qs : List Prog} (hq : Quiet n.id) (hp : QuietO (Punc.from n)) (hb : b ≠ .bad) (h : T a ps b) (h' : T b qs e) :
    T a (Prog.New.bwcp n ps :: qs) e := by
  refine T_concat ?_
  simp only [List.cons_append, List.nil_append, List.append_assoc]
  exact T_pre' hq (T_ifDangling (T_concat (T_app h (T_ifDangling (T_post' hq (T_punctOpt hp hb h'))))))
theorem T_bwc {a e : St} {n : Loc} {ps qs : List Prog} (ha : a ≠ .bad) (h : T .G ps .I) (h' : T (pst n.id) qs e) :
    T a (Prog.New.bwc n ps :: qs) e := by
  refine T_concat ?_
  simp only [List.cons_append, List.nil_append]
  refine T_pre ha (T_ifDangling (T_concat ?_))
  rw [List.append_assoc]
  exact T_app h (T_post rfl h')

/-- A node without comments. -/
theorem T_bwc' {a b e : St} {n : Loc} {ps qs : List Prog} (hq : Quiet n.id) (h : T a ps b) (h' : T b qs e) :
    T a (Prog.New.bwc n ps :: qs) e := by
  refine T_concat ?_
  simp only [List.cons_append, List.nil_append]
  refine T_pre' hq (T_ifDangling (T_concat ?_))
  rw [List.append_assoc]
  exact T_app h (T_post' hq h')
theorem T_paren {a b e : St} {ps qs : List Prog} (hk : Kids b ps) (ha : a ≠ .bad) (hb : b ≤ .F) (h : T .I qs e) :
    T a (Prog.New.parenList ps :: qs) e := by
  have hs : SepOk b (.after .softline) := by
    cases b <;> first | (exact absurd hb (by decide)) | decide
  have h2 : T0 b (Prog.opt (some .maybeline)) .G := by
    cases b <;> first | (exact absurd hb (by decide)) | decide
  refine T_group (T_surround hk ?_ hs (by decide) (by decide) (by decide) (by decide) (by decide) h2 h)
  revert ha; cases a <;> decide
/-! ### Lists of kids -/
theorem Kids_nil {e : St} : Kids e [] := fun _ h => absurd h (by simp)
theorem Kids_cons {e : St} {p : Prog} {ps : List Prog} (h : Kid e p) (h' : Kids e ps) : Kids e (p :: ps) := by
  intro q hq
  rcases List.mem_cons.1 hq with rfl | hq
  · exact h
  · exact h' q hq
theorem Kids_append {e : St} {ps qs : List Prog} (h : Kids e ps) (h' : Kids e qs) : Kids e (ps ++ qs) := by
  intro q hq
  rcases List.mem_append.1 hq with hq | hq
  · exact h q hq
  · exact h' q hq
theorem Kids_opt {e : St} {o : Option Prog} (h : OptK e o) : Kids e (Prog.opt o) := by
  cases o with
  | none => exact Kids_nil
  | some p => exact Kids_cons (h p rfl) Kids_nil
theorem Kids_ite {e : St} {c : Prop} [Decidable c] {ps qs : List Prog} (h : Kids e ps) (h' : Kids e qs) :
    Kids e (if c then ps else qs) := by split <;> assumption
theorem Kid_le {e e' : St} {p : Prog} (h : Kid e p) (h' : e ≤ e') : Kid e' p := T_end h h'
/-! ### Results -/
theorem P_opt {α : Type} {e : St} {o : Option α} {f : α → R Prog} (h : ∀ x, o = some x → P (f x) (Kid e)) :
    P (optR o f) (OptK e) := by
  refine P_of (fun r hr p hp => ?_)
  subst hp
  cases o with
  | none => cases hr
  | some x =>
    simp only [optR] at hr
    split at hr
    · rename_i b hb
      cases hr
      exact P_get (h x rfl) hb
    · cases hr
theorem P_map {α : Type} {e : St} {f : α → R Prog} : ∀ {xs : List α}, (∀ x ∈ xs, P (f x) (Kid e)) → P (mapR f xs) (Kids e)
  | [], _ => P_of (fun r hr => by cases hr; exact Kids_nil)
  | x :: xs, h => by
    refine P_of (fun r hr => ?_)
    rw [mapR] at hr
    split at hr
    · cases hr
    · rename_i b hb
      split at hr
      · cases hr
      · rename_i bs hbs
        cases hr
        exact Kids_cons (P_get (h x (by simp)) hb) (P_get (P_map (fun y hy => h y (by simp [hy]))) hbs)
theorem P_mapM {α : Type} {e : St} {f : α → R (Bool × Prog)} : ∀ {xs : List α}, (∀ x ∈ xs, P (f x) (fun m => Kid e m.2)) →
    P (mapR f xs) (Mems e)
  | [], _ => P_of (fun r hr => by cases hr; intro m hm; cases hm)
  | x :: xs, h => by
    refine P_of (fun r hr => ?_)
    rw [mapR] at hr
    split at hr
    · cases hr
    · rename_i b hb
      split at hr
      · cases hr
      · rename_i bs hbs
        cases hr
        intro m hm
        rcases List.mem_cons.1 hm with rfl | hm
        · exact P_get (Q := fun m => Kid e m.2) (h x (by simp)) hb
        · exact P_get (P_mapM (fun y hy => h y (by simp [hy]))) hbs m hm
/-- The state in which the programs of a class end. -/
def endOf : Cls → St
  | .annotation => .P
  | .modifiers => .P
  | _ => .I
theorem tidy {s : Str} (h : Tidy s) : Edge s ∧ ink s ≠ [] := by unfold Tidy at h; exact h
theorem InL_of {root : Node} {xs : List Loc} (h : ∀ l ∈ xs, In root l) : InL root xs := by unfold InL; exact h
theorem InL_mem {root : Node} {xs : List Loc} (h : InL root xs) {l : Loc} (hl : l ∈ xs) : In root l := by unfold InL at h; exact h l hl
theorem InO_mem {root : Node} {o : Option Loc} (h : InO root o) {l : Loc} (hl : o = some l) : In root l := by unfold InO at h; exact h l hl

/-- The classes of nodes that are never members of a body, so that no comments are around them. -/
def hush : Cls → Bool
  | .root | .annotationArgumentList => false
  | .rootMember | .classMember | .interfaceMember | .statement | .forInitOption => false
  | .classDeclaration | .methodDeclaration | .fieldDeclaration | .interfaceDeclaration | .enumDeclaration | .constructorDeclaration => false
  | .triggerDeclaration | .staticInitializer | .constantDeclaration => false
  | .block | .localVariableDeclaration | .ifStatement | .forStatement | .enhancedForStatement | .runAsStatement | .doStatement => false
  | .whileStatement | .returnStatement | .tryStatement | .throwStatement | .breakStatement | .continueStatement => false
  | .switchExpression | .expressionStatement | .constructInvocation => false
  | .valueNode | .valueNodeLowerCase | .valueNodeUpperCase | .comparison => false
  | _ => true

/-- Kinds of members of bodies. -/
def memberKinds : List String :=
  Gram.kindsOf .rootMember ++ (Gram.kindsOf .classMember ++ (Gram.kindsOf .statement ++ (Gram.kindsOf .interfaceMember ++
    Gram.kindsOf .constructInvocation)))

/-- The classes that other constructors call and whose programs print something. -/
def callable : Cls → Bool
  | .annotationArgumentList => false
  | .root => false
  | _ => true
/-- The setting of a constructor for `n`: a tree with trimmed texts, punctuation without comments and constructors whose
programs behave; the children of `n` end in `x`. -/
structure Env [K : Src] (root : Node) (n : Loc) (x : St) (rec : Rec) : Prop extends TidyTree root where
  call : ∀ c l, In root l → hush c = true → P (rec c l) (Kid (endOf c))
  calm : ∀ c l, In root l → memberKinds.contains l.kind = false → callable c = true → P (rec c l) (Kid (endOf c))
  near : ∀ c l, l ∈ n.children → callable c = true → P (rec c l) (Kid (up (endOf c) x))
  self : ∀ c, callable c = true → P (rec c n) (Kid (up (endOf c) (pst n.id)))
  args : ∀ l, In root l → P (rec .annotationArgumentList l) (fun p => T .I [p] .I)
  kids : ∀ l ∈ n.children, pst l.id ≤ x
  punc : ∀ l, In root l → QuietO (Punc.from l)
  inner : ∀ l, In root l → QuietO (Punc.fromInner l)
  semi : ∀ l, In root l → ∀ s ∈ l.children, s.kind = ";" → Quiet s.id

theorem child_named {n x : Loc} (h : x ∈ n.namedChildren) : x ∈ n.children := (List.mem_filter.1 h).1
theorem child_vec {n x : Loc} (h : x ∈ n.childrenVec) : x ∈ n.children := child_named (List.mem_filter.1 h).1
theorem child_tryCByK {n x : Loc} {k : String} (h : n.tryCByK k = some x) : x ∈ n.children :=
  child_named (List.mem_of_find?_eq_some h)
theorem child_tryCByN {n x : Loc} {k : String} (h : n.tryCByN k = some x) : x ∈ n.children := List.mem_of_find?_eq_some h
theorem child_tryFirstC {n x : Loc} (h : n.tryFirstC = some x) : x ∈ n.children := child_named (List.mem_of_find?_eq_some h)
theorem child_cByK {n x : Loc} {k : String} (h : n.cByK k = .ok x) : x ∈ n.children := child_tryCByK (try_of_cByK h)
theorem child_cByN {n x : Loc} {k : String} (h : n.cByN k = .ok x) : x ∈ n.children := child_tryCByN (try_of_cByN h)
theorem child_tryCsByK {n x : Loc} {k : String} (h : x ∈ n.tryCsByK k) : x ∈ n.children := child_named (List.mem_filter.1 h).1
theorem child_csByK {n x : Loc} {k : String} {xs : List Loc} (hxs : n.csByK k = .ok xs) (h : x ∈ xs) : x ∈ n.children := by
  rw [try_of_csByK hxs] at h; exact child_tryCsByK h
theorem child_csByN {n x : Loc} {k : String} {xs : List Loc} (hxs : n.csByN k = .ok xs) (h : x ∈ xs) : x ∈ n.children := by
  unfold Loc.csByN at hxs
  split at hxs
  · cases hxs
  · rw [Except.ok.injEq] at hxs
    subst hxs
    exact (List.mem_filter.mp h).1
theorem child_firstC {n x : Loc} (h : n.firstC = .ok x) : x ∈ n.children := child_tryFirstC (try_of_firstC h)
section
variable {root : Node} {rec : Rec} {n : Loc} {x : St}
theorem Env.textT (E : Env root n x rec) (l : Loc) (hl : In root l) : Tidy l.value := E.text l hl
theorem Env.kindT (E : Env root n x rec) (l : Loc) (hl : In root l) : Tidy l.kind.toList := E.kind l hl
theorem Env.recP (E : Env root n x rec) (c : Cls) (l : Loc) (hl : In root l) (hc : hush c = true) :
    P (rec c l) (Kid (endOf c)) := E.call c l hl hc
theorem Env.optP (E : Env root n x rec) {c : Cls} {o : Option Loc} (h : InO root o) (hc : hush c = true) :
    P (optR o (rec c)) (OptK (endOf c)) := P_opt (fun x hx => E.call c x (InO_mem h hx) hc)
theorem Env.mapP (E : Env root n x rec) {c : Cls} {xs : List Loc} (h : InL root xs) (hc : hush c = true) :
    P (mapR (rec c) xs) (Kids (endOf c)) := P_map (fun x hx => E.call c x (InL_mem h hx) hc)
theorem Env.member (E : Env root n x rec) {cfg : Cfg} {c : Cls} {l : Loc} (hl : l ∈ n.children) (hc : callable c = true) :
    P (Prog.New.bodyMember cfg rec c l) (fun m => Kid (up (endOf c) x) m.2) := by
  refine P_of (fun m hm => ?_)
  unfold Prog.New.bodyMember at hm
  split at hm
  · cases hm
  · rename_i p hp
    split at hm
    · cases hm
    · cases hm; exact P_get (E.near c l hl hc) hp
theorem Env.members (E : Env root n x rec) {cfg : Cfg} {c : Cls} {xs : List Loc} (h : ∀ l ∈ xs, l ∈ n.children) (hc : callable c = true) :
    P (mapR (Prog.New.bodyMember cfg rec c) xs) (Mems (up (endOf c) x)) := P_mapM (fun x hx => E.member (h x hx) hc)
theorem Env.dispatch (E : Env root n x rec) {tbl : List (String × Cls)} {l : Loc} {e : St} (hl : In root l)
    (h : tbl.all (fun x => decide (endOf x.2 ≤ e) && hush x.2) = true) :
    P (Prog.New.dispatch rec tbl l) (Kid e) := by
  refine P_of (fun p hp => ?_)
  unfold Prog.New.dispatch at hp
  split at hp
  · rename_i x hx
    have := List.all_eq_true.1 h x (List.mem_of_find?_eq_some hx)
    rw [Bool.and_eq_true, decide_eq_true_eq] at this
    exact Kid_le (P_get (E.call _ _ hl this.2) hp) this.1
  · cases hp

theorem up_I (a : St) : up .I a = a := by cases a <;> rfl

theorem Env.dispatchN (E : Env root n .I rec) {tbl : List (String × Cls)} {l : Loc} (hl : l ∈ n.children)
    (h : tbl.all (fun x => decide (endOf x.2 = .I) && callable x.2) = true) :
    P (Prog.New.dispatch rec tbl l) (Kid .I) := by
  refine P_of (fun p hp => ?_)
  unfold Prog.New.dispatch at hp
  split at hp
  · rename_i x hx
    have := List.all_eq_true.1 h x (List.mem_of_find?_eq_some hx)
    rw [Bool.and_eq_true, decide_eq_true_eq] at this
    have h' := P_get (E.near _ _ hl this.2) hp
    rw [this.1, up_I] at h'
    exact h'
  · cases hp

/-- A constructor that passes its own node on. -/
theorem Env.pass (E : Env root n x rec) {tbl : List (String × Cls)}
    (h : tbl.all (fun x => decide (endOf x.2 = .I) && callable x.2) = true) :
    P (Prog.New.dispatch rec tbl n) (Kid (pst n.id)) := by
  refine P_of (fun p hp => ?_)
  unfold Prog.New.dispatch at hp
  split at hp
  · rename_i x hx
    have := List.all_eq_true.1 h x (List.mem_of_find?_eq_some hx)
    rw [Bool.and_eq_true, decide_eq_true_eq] at this
    have h' := P_get (E.self _ this.2) hp
    rw [this.1, up_I] at h'
    exact h'
  · cases hp
theorem Env.selfP (E : Env root n x rec) (c : Cls) (h : endOf c = .I) (hc : callable c = true) : P (rec c n) (Kid (pst n.id)) := by
  have := E.self c hc
  rwa [h, up_I] at this
theorem Env.nearP (E : Env root n .I rec) (c : Cls) (l : Loc) (hl : l ∈ n.children) (h : endOf c = .I) (hc : callable c = true) :
    P (rec c l) (Kid .I) := by
  have := E.near c l hl hc
  rwa [h, up_I] at this
theorem Env.nearO (E : Env root n .I rec) {c : Cls} {o : Option Loc} (hl : ∀ l, o = some l → l ∈ n.children) (h : endOf c = .I) (hc : callable c = true) :
    P (optR o (rec c)) (OptK .I) := P_opt (fun l h' => E.nearP c l (hl l h') h hc)
theorem Env.nearL (E : Env root n .I rec) {c : Cls} {xs : List Loc} (hl : ∀ l ∈ xs, l ∈ n.children) (h : endOf c = .I) (hc : callable c = true) :
    P (mapR (rec c) xs) (Kids .I) := P_map (fun l h' => E.nearP c l (hl l h') h hc)
theorem Env.dispatchs (E : Env root n x rec) {tbl : List (String × Cls)} {xs : List Loc} {e : St} (hl : InL root xs)
    (h : tbl.all (fun x => decide (endOf x.2 ≤ e) && hush x.2) = true) :
    P (mapR (Prog.New.dispatch rec tbl) xs) (Kids e) := P_map (fun x hx => E.dispatch (InL_mem hl hx) h)
theorem Env.cByK (_ : Env root n x rec) {m : Loc} (hn : In root m) {k : String} : P (m.cByK k) (In root) := P_of (fun _ h => in_cByK hn h)
theorem Env.cByN (_ : Env root n x rec) {m : Loc} (hn : In root m) {k : String} : P (m.cByN k) (In root) := P_of (fun _ h => in_cByN hn h)
theorem Env.firstC (_ : Env root n x rec) {m : Loc} (hn : In root m) : P m.firstC (In root) := P_of (fun _ h => in_firstC hn h)
theorem Env.csByK (_ : Env root n x rec) {m : Loc} (hn : In root m) {k : String} : P (m.csByK k) (fun cs => InL root cs ∧ cs ≠ []) := by
  refine P_of (fun _ h => ⟨InL_of (fun _ hc => in_csByK hn h hc), ?_⟩)
  rintro rfl
  unfold Loc.csByK at h
  split at h <;> simp_all
theorem Env.csByN (_ : Env root n x rec) {m : Loc} (hn : In root m) {k : String} : P (m.csByN k) (fun cs => InL root cs ∧ cs ≠ []) := by
  refine P_of (fun _ h => ⟨InL_of (fun _ hc => in_csByN hn h hc), ?_⟩)
  rintro rfl
  unfold Loc.csByN at h
  split at h
  · cases h
  · rename_i hne
    simp only [Except.ok.injEq] at h
    exact hne (by rw [h])
theorem Env.nextNamed (_ : Env root n x rec) {m : Loc} (hn : In root m) : P m.nextNamed (In root) := P_of (fun _ h => in_nextNamed hn h)
theorem Env.check (_ : Env root n x rec) {m : Loc} {k : String} : P (assertCheck m k) (fun _ => m.kind = k) := by
  refine P_of (fun _ h => ?_)
  unfold assertCheck at h
  split at h
  · rename_i hk; exact eq_of_beq hk
  · cases h
theorem Env.valueN (E : Env root n x rec) {m : Loc} (hn : In root m) {k : String} : P (m.cvalueByN k) Tidy := by
  refine P_of (fun s hs => ?_)
  unfold Loc.cvalueByN at hs
  split at hs
  · rename_i c hc; cases hs; exact E.text c (in_tryCByN hn hc)
  · cases hs
theorem Env.valueK (E : Env root n x rec) {m : Loc} (hn : In root m) {k : String} : P (m.cvalueByK k) Tidy := by
  refine P_of (fun s hs => ?_)
  unfold Loc.cvalueByK at hs
  split at hs
  · rename_i c hc; cases hs; exact E.text c (in_tryCByK hn hc)
  · cases hs
end
/-! ### Tactics -/
theorem T_surroundI {a e : St} {x : Ins} {o c : Str} {so pc : Option Prog} {ps qs : List Prog} (ha : a ≠ .bad)
    (hk : Kids .I ps) (hx : SepOk .I x) (h1 : T0 .I ((Prog.opt so).map .indent) .G) (h2 : T0 .I (Prog.opt pc) .G)
    (ho : (clean o = true ∧ ink o ≠ []) ∧ clean c = true ∧ ink c ≠ []) (h : T .I qs e) :
    T a (Prog.surround ps x ⟨none, some o, so⟩ ⟨pc, some c, none⟩ :: qs) e :=
  T_surround hk ha hx ho.1.1 ho.1.2 ho.2.1 ho.2.2 h1 h2 h
theorem T_tI {a e : St} {s : String} {qs : List Prog} (ha : a ≠ .bad) (hc : clean s.toList = true ∧ ink s.toList ≠ [])
    (h : T .I qs e) : T a (Prog.t s :: qs) e := T_ink ha hc.1 hc.2 h
theorem T_tLI {a e : St} {s : String} {qs : List Prog} (ha : a ≠ .bad)
    (hc : clean (' ' :: s.toList) = true ∧ ink (' ' :: s.toList) ≠ []) (h : T .I qs e) : T a (Prog.tL s :: qs) e :=
  T_ink ha hc.1 hc.2 h
theorem T_tRI {a e : St} {s : String} {qs : List Prog} (ha : a ≠ .bad)
    (hc : clean (s.toList ++ [' ']) = true ∧ ink (s.toList ++ [' ']) ≠ []) (h : T .I qs e) : T a (Prog.tR s :: qs) e :=
  T_ink ha hc.1 hc.2 h
theorem T_tLRI {a e : St} {s : String} {qs : List Prog} (ha : a ≠ .bad)
    (hc : clean (' ' :: (s.toList ++ [' '])) = true ∧ ink (' ' :: (s.toList ++ [' '])) ≠ []) (h : T .I qs e) :
    T a (Prog.tLR s :: qs) e := T_ink ha hc.1 hc.2 h
theorem T_nilp {a e : St} {qs : List Prog} (ha : a ≠ .bad) (h : T (fl a) qs e) : T a (Prog.nil :: qs) e := T_txt ha rfl h
theorem Kid_of {e : St} {p : Prog} (h : T .G [p] e) : Kid e p := h
theorem T_kidI {a e : St} {p : Prog} {qs : List Prog} (hk : Kid .I p) (ha : a ≠ .bad) (h : T .I qs e) : T a (p :: qs) e :=
  T_kid hk ha h
theorem T_kidP {a e : St} {p : Prog} {qs : List Prog} (hk : Kid .P p) (ha : a ≠ .bad) (h : T .P qs e) : T a (p :: qs) e :=
  T_kid hk ha h
theorem T_sAfter {a e : St} {x : Ins} {o c : String} {so pc : Prog} {ps qs : List Prog} (ha : a ≠ .bad)
    (hk : Kids .I ps) (hx : SepOk .I x) (h1 : T0 .I [.indent so] .G) (h2 : T0 .I [pc] .G)
    (ho : (clean o.toList = true ∧ ink o.toList ≠ []) ∧ clean c.toList = true ∧ ink c.toList ≠ []) (h : T .I qs e) :
    T a (Prog.surround ps x (.sAfter o so) (.before pc c) :: qs) e := T_surroundI ha hk hx h1 h2 ho h
theorem T_sAfter' {a e : St} {x : Ins} {o c : String} {so : Prog} {ps qs : List Prog} (ha : a ≠ .bad)
    (hk : Kids .I ps) (hx : SepOk .I x) (h1 : T0 .I [.indent so] .G)
    (ho : (clean o.toList = true ∧ ink o.toList ≠ []) ∧ clean c.toList = true ∧ ink c.toList ≠ []) (h : T .I qs e) :
    T a (Prog.surround ps x (.sAfter o so) (.s c) :: qs) e := T_surroundI ha hk hx h1 (by decide) ho h
theorem T_sPlain {a e : St} {x : Ins} {o c : String} {ps qs : List Prog} (ha : a ≠ .bad)
    (hk : Kids .I ps) (hx : SepOk .I x)
    (ho : (clean o.toList = true ∧ ink o.toList ≠ []) ∧ clean c.toList = true ∧ ink c.toList ≠ []) (h : T .I qs e) :
    T a (Prog.surround ps x (.s o) (.s c) :: qs) e := T_surroundI ha hk hx (by decide) (by decide) ho h
theorem T_parenI {a e : St} {ps qs : List Prog} (hk : Kids .I ps) (ha : a ≠ .bad) (h : T .I qs e) :
    T a (Prog.New.parenList ps :: qs) e := T_paren hk ha (by decide) h
theorem T_interI {a e : St} {x : Ins} {ps qs : List Prog} (hk : Kids .I ps) (ha : a ≠ .bad) (hx : SepOk .I x)
    (h : T (fl a) qs e) : T a (Prog.intersperse ps x :: qs) e := by
  refine T_inter hk ha hx ?_
  have : up (fl a) .I = fl a := by cases a <;> rfl
  rwa [this]
theorem T_inter1I {a e : St} {x : Ins} {p : Prog} {ps qs : List Prog} (hk : Kids .I (p :: ps)) (ha : a ≠ .bad) (hx : SepOk .I x)
    (h : T .I qs e) : T a (Prog.intersperse (p :: ps) x :: qs) e := T_inter1 hk ha hx h
theorem T_inter2I {a e : St} {x : Ins} {p : Prog} {ps ps' qs : List Prog} (hk : Kids .I ((p :: ps) ++ ps')) (ha : a ≠ .bad)
    (hx : SepOk .I x) (h : T .I qs e) : T a (Prog.intersperse ((p :: ps) ++ ps') x :: qs) e := T_inter1 hk ha hx h
theorem T_bwcpI {root : Node} {n m : Loc} {x : St} {rec : Rec} {a e : St} {ps qs : List Prog} (E : Env root m x rec) (hn : In root n) (ha : a ≠ .bad)
    (h : T .G ps .I) (h' : T (pst n.id) qs e) : T a (Prog.New.bwcp n ps :: qs) e := T_bwcp (E.punc n hn) ha h h'

theorem T_optI {a e : St} {o : Option Prog} {qs : List Prog} (hk : OptK .I o) (ha : a ≠ .bad) (h : T a qs e) :
    T a (Prog.opt o ++ qs) e := by
  refine T_opt hk ha ?_
  have : up a .I = a := by cases a <;> rfl
  rwa [this]
theorem T_optL {a e : St} {o : Option Prog} (hk : OptK .I o) (ha : a ≠ .bad) (h : T a [] e) :
    T a (Prog.opt o) e := by
  rw [← List.append_nil (Prog.opt o)]; exact T_optI hk ha h
theorem T_kidsI {a e : St} {ps qs : List Prog} (hk : Kids .I ps) (ha : a ≠ .bad) (h : T a qs e) : T a (ps ++ qs) e := by
  refine T_kids hk ha (by decide) ?_
  have : up a .I = a := by cases a <;> rfl
  rwa [this]
theorem T_iteL {a e : St} {c : Prop} [Decidable c] {ps ps' : List Prog} (h : T a ps e) (h' : T a ps' e) :
    T a (if c then ps else ps') e := by split <;> assumption
theorem T_surroundBodyI {a e : St} {ms : List (Bool × Prog)} {qs : List Prog} (hk : Mems .P ms) (ha : a ≠ .bad)
    (h : T .I qs e) : T a (Prog.surroundBody ms :: qs) e := T_surroundBody hk ha (by decide) h
theorem T_optP {a e : St} {o : Option Prog} {qs : List Prog} (hk : OptK .P o) (ha : a ≠ .bad) (hp : .P ≤ a) (h : T a qs e) :
    T a (Prog.opt o ++ qs) e := by
  refine T_opt hk ha ?_
  have : up a .P = a := by cases a <;> first | rfl | exact absurd hp (by decide)
  rwa [this]
theorem OptK_get {e : St} {p : Prog} (h : OptK e (some p)) : Kid e p := h p rfl
theorem T_kindt {a e : St} {k : String} {qs : List Prog} (h : Tidy k.toList) (ha : a ≠ .bad) (hq : T .I qs e) :
    T a (Prog.t k :: qs) e := T_ink ha (clean_plain (tidy h).1) (tidy h).2 hq
theorem T_valI {a e : St} {s : Str} {qs : List Prog} (h : Tidy s) (ha : a ≠ .bad) (hq : T .I qs e) :
    T a (.txt s :: qs) e := T_ink ha (clean_plain (tidy h).1) (tidy h).2 hq
theorem T_txtRI {a e : St} {s : Str} {qs : List Prog} (h : Tidy s) (ha : a ≠ .bad) (hq : T .I qs e) :
    T a (Prog.txtR s :: qs) e := T_ink ha (clean_edge (tidy h).1 [] [' '] rfl rfl) (ink_edge [] [' '] (tidy h).2) hq
theorem T_txtLRI {a e : St} {s : Str} {qs : List Prog} (h : Tidy s) (ha : a ≠ .bad) (hq : T .I qs e) :
    T a (Prog.txtLR s :: qs) e := T_ink ha (clean_edge (tidy h).1 [' '] [' '] rfl rfl) (ink_edge [' '] [' '] (tidy h).2) hq
theorem T_interMap {f : Loc → R Prog} {xs : List Loc} {a e : St} {x : Ins} {ps qs : List Prog}
    (hm : mapR f xs = .ok ps) (hne : xs ≠ []) (hk : Kids .I ps) (ha : a ≠ .bad)
    (hx : SepOk .I x) (h : T .I qs e) : T a (Prog.intersperse ps x :: qs) e :=
  T_interNe hk (mapR_ne hm hne) ha hx h
theorem T_interVec {root : Node} {rec : Rec} {m n : Loc} {z : St} {k : String} (E : Env root m z rec) (hn : In root n) {f : Loc → R Prog} {a e : St}
    {x : Ins} {ps qs : List Prog} (hm : mapR f n.childrenVec = .ok ps) (hkd : n.kind = k) (hf : fullKinds.contains k = true) (hk : Kids .I ps)
    (ha : a ≠ .bad) (hx : SepOk .I x) (h : T .I qs e) : T a (Prog.intersperse ps x :: qs) e :=
  T_interNe hk (mapR_ne hm (E.full n hn (hkd ▸ hf))) ha hx h
theorem T_bracketBody {a e : St} {n : Loc} {ms : List (Bool × Prog)} {qs : List Prog} (hk : Mems .P ms) (ha : a ≠ .bad)
    (h : T (pst n.id) qs e) : T a (Prog.New.bracketBody n ms :: qs) e :=
  T_concat (T_pre ha (T_ifDangling (T_concat (T_surroundBodyI hk (by decide) (T_post rfl h)))))
theorem T_declarators {a e : St} {ps qs : List Prog} (hk : Kids .I ps) (ha : a = .I) (h : T .I qs e) :
    T a (Prog.New.declaratorsDoc ps :: qs) e := by
  subst ha
  unfold Prog.New.declaratorsDoc
  split
  · exact T_kid (hk _ (by simp)) (by decide) h
  · exact T_group (T_indent (T_interI hk (by decide) (by decide) h))
theorem T_chain {a e : St} {c : Option ChainingContext} {o : Prog} {link qs : List Prog} (ho : Kid .I o) (ha : a ≠ .bad)
    (hl : T .P link .I) (h : T .I qs e) : T a (Prog.New.chainDoc c o link :: qs) e := by
  have hl' : T .I link .I := T_start (by decide) hl
  have key : ∀ {a' : St} {b : Bool}, a' ≠ .bad → T a' (([o] ++ (if b then [Prog.maybeline] else []) ++ link) ++ qs) e := by
    intro a' b ha'
    rw [List.append_assoc, List.append_assoc]
    refine T_kid ho ha' ?_
    cases b
    · simpa using T_app hl' h
    · simpa using T_maybe (T_app (a := brk .I) hl h)
  unfold Prog.New.chainDoc
  cases c with
  | none => exact T_concat (T_kid ho ha (T_app hl' h))
  | some c =>
    dsimp only
    split
    · exact T_group (T_indent (T_concat (key (by revert ha; cases a <;> decide))))
    · exact T_concat (key ha)
theorem T_wcp {a e : St} {i : Nat} {p : Option Punc} {ps qs : List Prog} (hp : QuietO p) (ha : a ≠ .bad) (h : T .G ps .I) (h' : T (pst i) qs e) :
    T a (Prog.withCommentsAndPunc i p ps :: qs) e := by
  refine T_concat ?_
  simp only [List.cons_append, List.nil_append, List.append_assoc]
  exact T_pre ha (T_ifDangling (T_concat (T_app h (T_ifDangling (T_post rfl (T_punctOpt hp pst_ne h'))))))
theorem T_wcpa {a e : St} {i : Nat} {p : Option Punc} {ps qs : List Prog} (hp : QuietO p) (ha : a ≠ .bad) (h : T .G ps .I) (h' : T (pst i) qs e) :
    T a (Prog.withCommentsAndPuncAttached i p ps :: qs) e := by
  refine T_concat ?_
  simp only [List.cons_append, List.nil_append, List.append_assoc]
  exact T_pre ha (T_ifDangling (T_concat (T_app h (T_punctOpt hp (by decide) (T_ifDangling (T_post rfl h'))))))
theorem T_spaced {a e : St} {o : Option Prog} {qs : List Prog} (ho : OptK .I o) (ha : a = .I) (h : T .I qs e) :
    T a (Prog.New.spaced o ++ qs) e := by
  subst ha
  cases o with
  | none => exact h
  | some p => exact T_tb (by decide) (by decide) (T_kid (ho p rfl) (by decide) h)
theorem T_spacedL {a e : St} {o : Option Prog} (ho : OptK .I o) (ha : a = .I) (h : T .I [] e) :
    T a (Prog.New.spaced o) e := by
  rw [← List.append_nil (Prog.New.spaced o)]; exact T_spaced ho ha h
theorem T_interNeI {a e : St} {x : Ins} {ps qs : List Prog} (hne : ¬ ps.isEmpty = true) (hk : Kids .I ps) (ha : a ≠ .bad)
    (hx : SepOk .I x) (h : T .I qs e) : T a (Prog.intersperse ps x :: qs) e :=
  T_interNe hk (by rintro rfl; exact hne rfl) ha hx h
theorem T_annotated {a e : St} {ps : List Prog} {s : Str} (hk : Kids .P ps) (hs : Tidy s) (ha : a ≠ .bad) (h : St.I ≤ e) :
    T a (Prog.New.annotatedName ps s) e := by
  unfold Prog.New.annotatedName
  split
  · exact T_valI hs ha h
  · rename_i hne
    exact T_interNe hk (by rintro rfl; exact hne rfl) ha (by decide) (T_tb (by decide) (by decide) (T_valI hs (by decide) h))
theorem T_guard {a e : St} {ps : List Prog} (h : T a ps e) : T a ps e := h
theorem Env.keyword {root : Node} {n : Loc} {x : St} {rec : Rec} (_ : Env root n x rec) {tbl : List (String × String)} {l : Loc}
    (h : tbl.all (fun x => decide (clean x.2.toList = true ∧ ink x.2.toList ≠ [])) = true) :
    P (Prog.New.keyword tbl l) (Kid .I) := by
  refine P_of (fun p hp => ?_)
  unfold Prog.New.keyword at hp
  split at hp
  · rename_i x hx
    have := List.all_eq_true.1 h x (List.mem_of_find?_eq_some hx)
    rw [decide_eq_true_eq] at this
    cases hp
    exact Kid_of (T_tI (by decide) this (St.le_refl _))
  · cases hp
theorem T_interBodyI {a e : St} {ms : List (Bool × Prog)} {qs : List Prog} (hk : Mems .P ms) (ha : a ≠ .bad)
    (h : T (up (fl a) .P) qs e) : T a (Prog.intersperseBody ms :: qs) e := T_interBody hk ha (by decide) h
/-- A list of programs between inked texts. -/
def Seg (ps : List Prog) : Prop := T .I ps .I
theorem Seg_of {ps : List Prog} (h : T .I ps .I) : Seg ps := h
theorem T_seg {a e : St} {ps qs : List Prog} (h : Seg ps) (ha : a = .I) (h' : T .I qs e) : T a (ps ++ qs) e := by
  subst ha; exact T_app h h'
theorem T_segL {a e : St} {ps : List Prog} (h : Seg ps) (ha : a = .I) (he : St.I ≤ e) : T a ps e := by
  subst ha; exact T_end h he
theorem P_dml {n : Loc} : P (Prog.New.dmlTypeVariant n) (Kid .I) := by
  refine P_of (fun p hp => ?_)
  unfold Prog.New.dmlTypeVariant at hp
  split at hp
  · rename_i h
    cases hp
    simp only [List.mem_cons, List.not_mem_nil, or_false] at h
    rcases h with h | h | h | h | h | h <;> (rw [h]; exact Kid_of (T_tI (by decide) (by decide) (St.le_refl _)))
  · cases hp
theorem Kid_last {e : St} {ps : List Prog} {p : Prog} (h : Kids e ps) (hp : ps.getLast? = some p) : Kid e p :=
  h p (List.mem_of_getLast? hp)
theorem Kids_head {e : St} {p : Prog} {ps : List Prog} (h : Kids e (p :: ps)) : Kid e p := h p (.head _)
theorem Kids_tail {e : St} {p : Prog} {ps : List Prog} (h : Kids e (p :: ps)) : Kids e ps := fun q hq => h q (.tail _ hq)
theorem Mems_nil {e : St} : Mems e [] := fun _ h => absurd h (by simp)
theorem T_interBodyNe {a e : St} {ms : List (Bool × Prog)} {qs : List Prog} (hk : Mems .P ms) (hne : ms ≠ []) (ha : a ≠ .bad)
    (h : T .P qs e) : T a (Prog.intersperseBody ms :: qs) e := by
  cases ms with
  | nil => exact absurd rfl hne
  | cons m ms => exact T_concat (T_app (T_bodyParts (by decide) ha hk (by simp)) h)
theorem T_run {a : St} {p : Prog} (h : T a [p] .P) : run a (syms K.ro K.cm p) ≠ .bad := by
  unfold T at h
  rw [symss, symss, List.append_nil] at h
  intro hb
  rw [hb] at h
  exact absurd h (by decide)

attribute [irreducible] T Seg Kid Kids OptK Mems SepOk

/-- The order of states. -/
macro "lst" : tactic => `(tactic| first | decide | exact St.le_refl _ | exact zero_le | exact pst_le)
/-- No bad state. -/
macro "nb" : tactic => `(tactic| first | decide | exact pst_ne)

/-- Hypotheses about kids, up to the end state of their class. -/
macro "nkh" : tactic => `(tactic| with_reducible first
  | assumption
  | exact OptK_get ‹_›
  | (refine Kid_last ?_ ?_ <;> assumption))

/-- Locations of the tree. -/
macro "ninn" : tactic => `(tactic| with_reducible first
  | assumption
  | (refine in_tryCByK ?_ (by assumption); assumption)
  | (refine in_tryCByN ?_ (by assumption); assumption)
  | (refine in_tryFirstC ?_ (by assumption); assumption)
  | (refine in_vec ?_ (by assumption); assumption)
  | (refine in_named ?_ (by assumption); assumption)
  | (refine in_parent ?_ (by assumption); assumption)
  | (refine InL_last ?_ (by assumption); assumption)
  | (refine InL_head ?_ <;> assumption))
/-- Lists of locations of the tree. -/
syntax "ninls" : tactic
macro_rules
  | `(tactic| ninls) => `(tactic| with_reducible first
    | assumption
    | (refine InL_vec ?_; ninn)
    | (refine InL_named ?_; ninn)
    | (refine InL_try ?_; ninn)
    | (refine InL_filter ?_; ninls)
    | (refine InL_drop ?_; ninls)
    | (refine InL_tail ?_; assumption))
/-- Optional locations of the tree. -/
macro "nino" : tactic => `(tactic| with_reducible first
    | assumption
    | (refine InO_K ?_; ninn)
    | (refine InO_N ?_; ninn)
    | (refine InO_first ?_; ninn))

/-- Texts of the tree. -/
macro "ninl" : tactic => `(tactic| with_reducible first
  | assumption
  | (refine Env.textT ‹_› _ ?_; ninn)
  | (refine Tidy_lower (Env.textT ‹_› _ ?_); ninn)
  | (refine Tidy_upper (Env.textT ‹_› _ ?_); ninn)
  | exact Tidy_quote
  | (refine Tidy_colon (Tidy_upper ?_) ?_ <;> assumption))

/-- One step of the machine. -/
syntax "nts" : tactic
/-- Kids of a list. -/
syntax "nks" : tactic

macro_rules
  | `(tactic| nks) => `(tactic| first
    | nkh
    | with_reducible exact Kids_nil
    | ((with_reducible refine Kids_cons ?_ ?_) <;> nks)
    | ((with_reducible refine Kids_append ?_ ?_) <;> nks)
    | ((with_reducible refine Kids_opt ?_); nkh)
    | ((with_reducible refine Kids_ite ?_ ?_) <;> nks)
    | ((with_reducible refine Kid_of ?_); repeat' nts))

macro_rules
  | `(tactic| nts) => `(tactic| first
    | ((with_reducible refine T_nil ?_); lst)
    | ((with_reducible refine T_kidI ?_ ?_ ?_); (· nkh); (· decide))
    | ((with_reducible refine T_kidP ?_ ?_ ?_); (· nkh); (· decide))
    | ((with_reducible refine T_tI ?_ ?_ ?_); (· decide); (· decide))
    | ((with_reducible refine T_kindt ?_ ?_ ?_); (· with_reducible exact Env.kindT ‹_› _ ‹_›); (· decide))
    | ((with_reducible refine T_bracketBody ?_ ?_ ?_); (· nkh); (· decide))
    | ((with_reducible refine T_declarators ?_ ?_ ?_); (· nkh); (· rfl))
    | ((with_reducible refine T_chain ?_ ?_ ?_ ?_); (· nkh); (· decide))
    | ((with_reducible refine T_wcp ?_ ?_ ?_ ?_); (· first | exact quietO_none | exact Env.inner ‹_› _ ‹_›); (· nb))
    | ((with_reducible refine T_wcpa ?_ ?_ ?_ ?_); (· first | exact quietO_none | exact Env.inner ‹_› _ ‹_›); (· nb))
    | ((with_reducible refine T_spaced ?_ ?_ ?_); (· nkh); (· rfl))
    | ((with_reducible refine T_spacedL ?_ ?_ ?_); (· nkh); (· rfl))
    | ((with_reducible refine T_annotated ?_ ?_ ?_ ?_); (· nkh); (· ninl); (· decide); (· decide))
    | ((with_reducible refine T_tb ?_ ?_ ?_); (· nb); (· decide); dsimp only [fl])
    | ((with_reducible refine T_tLI ?_ ?_ ?_); (· decide); (· decide))
    | ((with_reducible refine T_tRI ?_ ?_ ?_); (· decide); (· decide))
    | ((with_reducible refine T_tLRI ?_ ?_ ?_); (· decide); (· decide))
    | ((with_reducible refine T_nilp ?_ ?_); (· decide); dsimp only [fl])
    | ((with_reducible refine T_valI ?_ ?_ ?_); (· ninl); (· decide))
    | ((with_reducible refine T_txtRI ?_ ?_ ?_); (· ninl); (· decide))
    | ((with_reducible refine T_txtLRI ?_ ?_ ?_); (· ninl); (· decide))
    | ((with_reducible refine T_nl ?_); dsimp only [brk])
    | ((with_reducible refine T_soft ?_); dsimp only [brk])
    | ((with_reducible refine T_maybe ?_); dsimp only [brk])
    | ((with_reducible refine T_bwc ?_ ?_ ?_); (· nb))
    | ((with_reducible refine T_bwcpI ‹_› ?_ ?_ ?_ ?_); (· ninn); (· nb))
    | ((with_reducible refine T_parenI ?_ ?_ ?_); (· nks); (· decide))
    | ((with_reducible refine T_inter1I ?_ ?_ ?_ ?_); (· nks); (· decide); (· decide))
    | ((with_reducible refine T_inter2I ?_ ?_ ?_ ?_); (· nks); (· decide); (· decide))
    | ((with_reducible refine T_interMap (by assumption) (by assumption) ?_ ?_ ?_ ?_); (· nks); (· decide); (· decide))
    | ((with_reducible refine T_interVec ‹_› ‹_› (by assumption) (by assumption) ?_ ?_ ?_ ?_ ?_); (· decide); (· nks); (· decide); (· decide))
    | ((with_reducible refine T_interNeI ‹_› ?_ ?_ ?_ ?_); (· nks); (· decide); (· decide))
    | ((with_reducible refine T_interI ?_ ?_ ?_ ?_); (· nks); (· nb); (· decide); dsimp only [fl])
    | ((with_reducible refine T_sAfter ?_ ?_ ?_ ?_ ?_ ?_ ?_); (· decide); (· nks); (· decide); (· decide); (· decide); (· decide))
    | ((with_reducible refine T_sAfter' ?_ ?_ ?_ ?_ ?_ ?_); (· decide); (· nks); (· decide); (· decide); (· decide))
    | ((with_reducible refine T_sPlain ?_ ?_ ?_ ?_ ?_); (· decide); (· nks); (· decide); (· decide))
    | ((with_reducible refine T_surroundBodyI ?_ ?_ ?_); (· nkh); (· decide))
    | ((with_reducible refine T_interBodyI ?_ ?_ ?_); (· nkh); (· decide); dsimp only [fl])
    | ((with_reducible refine T_concat_last ?_))
    | ((with_reducible refine T_concat ?_); simp only [List.cons_append, List.nil_append, List.append_assoc])
    | ((with_reducible refine T_group ?_); dsimp only [fl])
    | (with_reducible refine T_indent ?_)
    | (with_reducible refine T_dedent ?_)
    | (with_reducible refine T_force ?_)
    | ((with_reducible refine T_pre ?_ ?_); (· nb))
    | ((with_reducible refine T_post ?_ ?_); (· rfl))
    | (with_reducible refine T_ifDangling ?_)
    | (with_reducible refine T_rootDangling ?_)
    | ((with_reducible refine T_optI ?_ ?_ ?_); (· nkh); (· decide))
    | ((with_reducible refine T_optL ?_ ?_ ?_); (· nkh); (· decide))
    | ((with_reducible refine T_optP ?_ ?_ ?_ ?_); (· nkh); (· decide); (· decide))
    | ((with_reducible refine T_kidsI ?_ ?_ ?_); (· nkh); (· decide))
    | ((with_reducible refine T_iteL ?_ ?_))
    | ((with_reducible refine T_ite ?_ ?_) <;> simp only [List.cons_append, List.nil_append, List.append_assoc])
    | ((with_reducible refine T_ite1 ?_ ?_) <;> simp only [List.cons_append, List.nil_append, List.append_assoc])
    | ((with_reducible refine T_seg ?_ ?_ ?_); (· assumption); (· rfl))
    | ((with_reducible refine T_segL ?_ ?_ ?_); (· assumption); (· rfl); (· decide))
    | ((with_reducible refine T_guard ?_); split)
    | (simp only [List.cons_append, List.nil_append, List.append_nil, List.append_assoc]))

/-- Children of the node. -/
macro "chn" : tactic => `(tactic| with_reducible first
  | assumption
  | exact child_cByN (by assumption)
  | exact child_cByK (by assumption)
  | exact child_firstC (by assumption)
  | exact child_tryCByN (by assumption)
  | exact child_tryCByK (by assumption))
/-- Optional children of the node. -/
macro "cho" : tactic => `(tactic| with_reducible first
  | exact (fun _ h => child_tryCByN h)
  | exact (fun _ h => child_tryCByK h)
  | exact (fun _ h => child_tryFirstC h))
/-- Lists of children of the node. -/
macro "chl" : tactic => `(tactic| with_reducible first
  | assumption
  | exact (fun _ h => child_vec h)
  | exact (fun _ h => child_tryCsByK h)
  | exact (fun _ h => child_csByK (by assumption) h)
  | exact (fun _ h => child_csByN (by assumption) h)
  | exact (fun _ h => child_named h)
  | exact (fun _ h => child_vec (List.mem_filter.1 h).1))

/-- Binds of a constructor. -/
macro "npb" E:ident hn:ident : tactic => `(tactic| first
  | ((with_reducible refine P_bind (Env.recP $E _ _ ?_ ?_) (fun _ _ _ => ?_)); (· ninn); (· rfl))
  | ((with_reducible refine P_bind (Env.optP $E ?_ ?_) (fun _ _ _ => ?_)); (· nino); (· rfl))
  | ((with_reducible refine P_bind (Env.members $E ?_ ?_) (fun _ _ _ => ?_)); (· chl); (· rfl))
  | ((with_reducible refine P_bind (Env.mapP $E ?_ ?_) (fun _ _ _ => ?_)); (· ninls); (· rfl))
  | ((with_reducible refine P_bind (Env.dispatchs $E (e := .I) ?_ ?_) (fun _ _ _ => ?_)); (· ninls); (· decide))
  | ((with_reducible refine P_bind (Env.member $E ?_ ?_) (fun _ _ _ => ?_)); (· chn); (· rfl))
  | ((with_reducible refine P_bind (Env.nearP $E _ _ ?_ ?_ ?_) (fun _ _ _ => ?_)); (· chn); (· rfl); (· rfl))
  | ((with_reducible refine P_bind (Env.nearO $E ?_ ?_ ?_) (fun _ _ _ => ?_)); (· cho); (· rfl); (· rfl))
  | ((with_reducible refine P_bind (Env.nearL $E ?_ ?_ ?_) (fun _ _ _ => ?_)); (· chl); (· rfl); (· rfl))
  | ((with_reducible refine P_bind (Env.selfP $E _ ?_ ?_) (fun _ _ _ => ?_)); (· rfl); (· rfl))
  | with_reducible refine P_bind (Env.check $E) (fun _ _ _ => ?_)
  | ((with_reducible refine P_bind (Env.valueN $E ?_) (fun _ _ _ => ?_)); (· ninn))
  | ((with_reducible refine P_bind (Env.valueK $E ?_) (fun _ _ _ => ?_)); (· ninn))
  | ((with_reducible refine P_bind (Env.cByK $E ?_) (fun _ _ _ => ?_)); (· ninn))
  | ((with_reducible refine P_bind (Env.cByN $E ?_) (fun _ _ _ => ?_)); (· ninn))
  | ((with_reducible refine P_bind (Env.firstC $E ?_) (fun _ _ _ => ?_)); (· ninn))
  | ((with_reducible refine P_bind (Env.csByK $E ?_) (fun _ _ ⟨_, _⟩ => ?_)); (· ninn))
  | ((with_reducible refine P_bind (Env.csByN $E ?_) (fun _ _ ⟨_, _⟩ => ?_)); (· ninn))
  | ((with_reducible refine P_bind (Env.nextNamed $E ?_) (fun _ _ _ => ?_)); (· ninn))
  | with_reducible exact P_err
  | ((with_reducible refine Env.selfP $E _ ?_ ?_); (· rfl); (· rfl))
  | ((with_reducible refine Env.pass $E ?_); (· decide))
  | ((with_reducible refine P_mono (Env.recP $E _ _ ?_ ?_) (fun _ h => Kid_le h ?_)); (· ninn); (· rfl); (· lst))
  | ((with_reducible refine P_mono (Env.nearP $E _ _ ?_ ?_ ?_) (fun _ h => Kid_le h ?_)); (· chn); (· rfl); (· rfl); (· lst))
  | ((with_reducible refine P_mono (Env.dispatch $E (e := .I) ?_ ?_) (fun _ h => Kid_le h ?_)); (· ninn); (· decide); (· lst))
  | ((with_reducible refine P_mono (Env.dispatchN $E ?_ ?_) (fun _ h => Kid_le h ?_)); (· chn); (· decide); (· lst))
  | ((with_reducible refine P_mono (Env.keyword $E ?_) (fun _ h => Kid_le h ?_)); (· decide); (· lst))
  | with_reducible refine P_bind (Q := Kid .I) ?_ (fun _ _ _ => ?_)
  | with_reducible refine P_bind (Q := Seg) ?_ (fun _ _ _ => ?_)
  | with_reducible refine P_bind (Q := fun _ => True) P_any (fun _ _ _ => ?_)
  | ((with_reducible refine P_ok (Kid_of ?_)))
  | ((with_reducible refine P_ok (Seg_of ?_)))
  | ((with_reducible refine P_pure (Kid_of ?_)))
  | ((with_reducible refine P_guard ?_); split))

/-- A constructor whose programs always print something. -/
macro "ntt" E:ident hn:ident : tactic => `(tactic| (
  repeat' npb $E $hn
  all_goals try simp only [endOf, up_I, Prog.groupConcat, Prog.groupIndent, Prog.groupIndentConcat, Prog.groupSurround] at *
  all_goals try simp only [List.cons_append, List.nil_append, List.append_assoc]
  all_goals try repeat' nts))

end Afmt.Notes
