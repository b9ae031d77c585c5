import Verif.Gram.Content

/-!
# Line breaks of the output, counted between visible characters

For a program without comments the output is determined, up to the choices of the printer, by a sequence of symbols:
texts, points where a pending line break is written, possible line breaks, and the line breaks between members.  An
abstract machine over these symbols decides whether the number of line breaks written between two members is exactly
the one asked for.
-/

namespace Afmt.Lines
open Afmt.Gram

/-! ### Gaps of a text -/

/-- For every visible character the number of newlines since the visible character before it; `g` newlines came
before. -/
def gaps (g : Nat) : Str → List Nat
  | [] => []
  | c :: s => if c = '\n' then gaps (g + 1) s else if c = ' ' then gaps g s else g :: gaps 0 s

/-- Newlines after the last visible character. -/
def tail (g : Nat) : Str → Nat
  | [] => g
  | c :: s => if c = '\n' then tail (g + 1) s else if c = ' ' then tail g s else tail 0 s

theorem gaps_append (a b : Str) : ∀ g, gaps g (a ++ b) = gaps g a ++ gaps (tail g a) b := by
  induction a with
  | nil => intro g; rfl
  | cons c a ih =>
    intro g
    simp only [List.cons_append, gaps, tail]
    split
    · exact ih _
    · split
      · exact ih _
      · rw [ih]; rfl

theorem tail_append (a b : Str) : ∀ g, tail g (a ++ b) = tail (tail g a) b := by
  induction a with
  | nil => intro g; rfl
  | cons c a ih =>
    intro g
    simp only [List.cons_append, tail]
    split
    · exact ih _
    · split
      · exact ih _
      · exact ih _

theorem isBlank_iff (c : Char) : isBlank c = true ↔ c = ' ' ∨ c = '\n' := by simp [isBlank]

theorem gaps_length (s : Str) : ∀ g, (gaps g s).length = (ink s).length := by
  induction s with
  | nil => intro g; rfl
  | cons c s ih =>
    intro g
    simp only [gaps, ink]
    split
    · rename_i h; subst h; simpa [ink, isBlank] using ih _
    · split
      · rename_i h; subst h; simpa [ink, isBlank] using ih _
      · rename_i h1 h2
        have : (!isBlank c) = true := by simp [isBlank, h1, h2]
        rw [List.filter_cons_of_pos (by exact this)]
        simpa [ink] using ih 0

theorem gaps_spaces (g n : Nat) : gaps g (spaces n) = [] := by
  induction n with
  | zero => rfl
  | succ n ih => exact ih

theorem tail_spaces (g n : Nat) : tail g (spaces n) = g := by
  induction n with
  | zero => rfl
  | succ n ih => exact ih

/-- No newline among the blanks at the start. -/
def cleanL : Str → Bool
  | [] => true
  | c :: s => if c = '\n' then false else if c = ' ' then cleanL s else true

/-- No newline among the blanks at the end. -/
def cleanR (s : Str) : Bool := cleanL s.reverse

/-- No newline among the blanks at the start and at the end. -/
def clean (s : Str) : Bool := cleanL s && cleanR s

theorem gaps_cleanL {s : Str} (h : cleanL s = true) (hi : ink s ≠ []) : ∀ g, ∃ l, gaps g s = g :: l := by
  induction s with
  | nil => exact absurd rfl hi
  | cons c s ih =>
    intro g
    rw [cleanL] at h
    split at h
    · cases h
    · rename_i h1
      simp only [gaps, h1, if_false]
      split
      · rename_i h2
        rw [if_pos h2] at h
        subst h2
        exact ih h (by simpa [ink, isBlank] using hi) g
      · exact ⟨_, rfl⟩

theorem tail_blank {s : Str} (h : cleanL s = true) (hi : ink s = []) : ∀ g, tail g s = g := by
  induction s with
  | nil => intro g; rfl
  | cons c s ih =>
    intro g
    rw [cleanL] at h
    split at h
    · cases h
    · rename_i h1
      simp only [tail, h1, if_false]
      split
      · rename_i h2
        rw [if_pos h2] at h
        subst h2
        exact ih h (by simpa [ink, isBlank] using hi) g
      · rename_i h2
        have : (!isBlank c) = true := by simp [isBlank, h1, h2]
        simp only [ink] at hi
        rw [List.filter_cons_of_pos (by exact this)] at hi
        cases hi

theorem gaps_blank {s : Str} (hi : ink s = []) (g : Nat) : gaps g s = [] :=
  List.length_eq_zero_iff.1 (by rw [gaps_length, hi]; rfl)

theorem tail_rev {s : Str} (h : cleanL s = true) (hi : ink s ≠ []) (g : Nat) : tail g s.reverse = 0 := by
  induction s generalizing g with
  | nil => exact absurd rfl hi
  | cons c s ih =>
    rw [cleanL] at h
    rw [List.reverse_cons, tail_append]
    split at h
    · cases h
    · rename_i h1
      simp only [tail, h1, if_false]
      split
      · rename_i h2
        rw [if_pos h2] at h
        subst h2
        exact ih h (by simpa [ink, isBlank] using hi) g
      · rfl

theorem ink_reverse (s : Str) : ink s.reverse = (ink s).reverse := by simp [ink, List.filter_reverse]

theorem tail_cleanR {s : Str} (h : cleanR s = true) (hi : ink s ≠ []) (g : Nat) : tail g s = 0 := by
  have := tail_rev (s := s.reverse) h (by rw [ink_reverse]; simpa using hi) g
  simpa using this

/-! ### Symbols -/

/-- A text, a point where a pending line break is written, a possible line break, or the line break between two
members. -/
inductive Sym where
  | txt (s : Str)
  | flush
  | br
  | may
  | sep (blank : Bool)

mutual
/-- Symbols of a program without comments. -/
def syms : Prog → List Sym
  | .txt s => [.txt s]
  | .softline => [.br]
  | .nl | .maybeline => [.may]
  | .forceBreak => []
  | .sep b => [.sep b]
  | .concat ps => symss ps
  | .group p => .flush :: syms p
  | .indent p | .dedent p => syms p
  | .pre _ | .post _ | .dangling _ | .rootDangling _ => []
  | .punct p => [.txt p.text]
  | .ifDangling _ _ q => syms q
  | .fail _ => []
def symss : List Prog → List Sym
  | [] => []
  | p :: ps => syms p ++ symss ps
end

theorem symss_append (a b : List Prog) : symss (a ++ b) = symss a ++ symss b := by
  induction a with
  | nil => simp [symss]
  | cons p a ih => simp [symss, ih]

/-- A comment map without comments. -/
def Silent (cm : CMap) : Prop :=
  ∀ id b, getBucket cm id = .ok b → b.pre = [] ∧ b.post = [] ∧ b.dangling = []

/-- The visible characters and member breaks of symbols. -/
def chsOf : List Sym → List Ch
  | [] => []
  | .txt s :: r => (letters false s).map .c ++ chsOf r
  | .flush :: r | .br :: r | .may :: r => chsOf r
  | .sep b :: r => .sep b :: chsOf r

theorem chsOf_append (a b : List Sym) : chsOf (a ++ b) = chsOf a ++ chsOf b := by
  induction a with
  | nil => rfl
  | cons x a ih => cases x <;> simp [chsOf, ih]

mutual
/-- Without comments, the content of a program is that of its symbols. -/
theorem chsOf_syms {cm : CMap} (hs : Silent cm) : ∀ (p : Prog) (is : List SItem) (l : List Comment),
    items cm p = .ok (is, l) → chsOf (syms p) = inks is
  | .txt s, is, l, h => by
    rw [items] at h; cases h
    rw [inks_codeItem]; simp [syms, chsOf]
  | .nl, is, l, h | .softline, is, l, h | .maybeline, is, l, h | .forceBreak, is, l, h => by
    rw [items] at h; cases h; rfl
  | .sep b, is, l, h => by rw [items] at h; cases h; rfl
  | .concat ps, is, l, h => by rw [items] at h; rw [syms]; exact chsOf_symss hs ps is l h
  | .group p, is, l, h => by rw [items] at h; rw [syms, chsOf]; exact chsOf_syms hs p is l h
  | .indent p, is, l, h | .dedent p, is, l, h => by rw [items] at h; rw [syms]; exact chsOf_syms hs p is l h
  | .pre id, is, l, h | .post id, is, l, h | .rootDangling id, is, l, h => by
    rw [items] at h
    cases hb : getBucket cm id with
    | error e => rw [hb] at h; cases h
    | ok b => rw [hb] at h; cases h; rw [inks_commentItems]; rfl
  | .dangling id, is, l, h => by
    rw [items] at h
    cases hb : getBucket cm id with
    | error e => rw [hb] at h; cases h
    | ok b =>
      rw [hb] at h
      dsimp only at h
      rw [if_pos (hs _ _ hb).2.2] at h
      cases h
  | .punct p, is, l, h => by
    rw [items] at h
    cases hb : getBucket cm p.id with
    | error e => rw [hb] at h; cases h
    | ok b =>
      rw [hb] at h; cases h
      obtain ⟨h1, h2, h3⟩ := hs _ _ hb
      simp [h1, h2, commentItems, syms, chsOf]
  | .ifDangling id p q, is, l, h => by
    rw [items] at h
    cases hb : getBucket cm id with
    | error e => rw [hb] at h; cases h
    | ok b =>
      rw [hb] at h
      dsimp only at h
      rw [if_neg (by simp [(hs _ _ hb).2.2])] at h
      rw [syms]; exact chsOf_syms hs q is l h
  | .fail e, is, l, h => by rw [items] at h; cases h
theorem chsOf_symss {cm : CMap} (hs : Silent cm) : ∀ (ps : List Prog) (is : List SItem) (l : List Comment),
    itemss cm ps = .ok (is, l) → chsOf (symss ps) = inks is
  | [], is, l, h => by rw [itemss] at h; cases h; rfl
  | p :: ps, is, l, h => by
    rw [itemss] at h
    cases h1 : items cm p with
    | error e => rw [h1] at h; cases h
    | ok a =>
      rw [h1] at h
      cases h2 : itemss cm ps with
      | error e => rw [h2] at h; cases h
      | ok b =>
        rw [h2] at h; cases h
        rw [symss, chsOf_append, chsOf_syms hs p a.1 a.2 h1, chsOf_symss hs ps b.1 b.2 h2, inks_append]
end

/-! ### What the printer does with symbols -/

/-- Operations a symbol may stand for. -/
inductive Res : Sym → List Op → Prop
  | txt (s n) : Res (.txt s) [.text s n]
  | flush : Res .flush [.flush]
  | pend (i) : Res .br [.pend i]
  | space : Res .br [.space]
  | pendm (i) : Res .may [.pend i]
  | none : Res .may []
  | blank (i) : Res (.sep true) [.bare, .pend i]
  | line (i) : Res (.sep false) [.pend i]

inductive Ress : List Sym → List Op → Prop
  | nil : Ress [] []
  | cons {x xs o os} : Res x o → Ress xs os → Ress (x :: xs) (o ++ os)

theorem Ress.one {x : Sym} {o : List Op} (h : Res x o) : Ress [x] o := by
  have := Ress.cons h .nil
  simpa using this

theorem Ress.append {a b : List Sym} {o o' : List Op} (h : Ress a o) (h' : Ress b o') : Ress (a ++ b) (o ++ o') := by
  induction h with
  | nil => exact h'
  | cons hx _ ih => rw [List.append_assoc]; exact .cons hx ih

theorem puncDocs_silent {b : Bucket} {p : Punc} (h1 : b.pre = []) (h2 : b.post = []) : puncDocs b p = [txt p.text] := by
  simp [puncDocs, h1, h2, postDocs]

mutual
/-- Printing a program without comments performs operations its symbols stand for. -/
theorem pr_ress {cm : CMap} (hs : Silent cm) (k w : Nat) : ∀ (p : Prog) (d : Doc) (l : List Comment),
    p.build k cm = .ok (d, l) → ∀ (i : Nat) (fl : Bool) (rest : List Chunk) (st : PSt),
    ∃ ops, pr w d i fl rest st = runOps ops st ∧ Ress (syms p) ops
  | .txt s, d, l, h, i, fl, rest, st => by
    rw [Prog.build] at h; cases h
    exact ⟨_, by simp [Afmt.txt, pr, Op.run]; rfl, .one (.txt s _)⟩
  | .nl, d, l, h, i, fl, rest, st => by
    rw [Prog.build] at h; cases h
    exact ⟨[.pend i], by simp [Afmt.nl, pr, Op.run], .one (.pendm i)⟩
  | .softline, d, l, h, i, fl, rest, st => by
    rw [Prog.build] at h; cases h
    cases fl
    · exact ⟨[.pend i], by simp [pr, Op.run], .one (.pend i)⟩
    · exact ⟨[.space], by simp [pr, Op.run], .one .space⟩
  | .maybeline, d, l, h, i, fl, rest, st => by
    rw [Prog.build] at h; cases h
    cases fl
    · exact ⟨[.pend i], by simp [pr, Op.run], .one (.pendm i)⟩
    · exact ⟨[], by simp [pr], .one .none⟩
  | .forceBreak, d, l, h, i, fl, rest, st => by
    rw [Prog.build] at h; cases h
    exact ⟨[], by simp [pr], .nil⟩
  | .sep b, d, l, h, i, fl, rest, st => by
    rw [Prog.build] at h; cases h
    cases b
    · exact ⟨[.pend i], by simp [Afmt.nl, pr, Op.run], .one (.line i)⟩
    · exact ⟨[.bare, .pend i], by simp [emptyNewLine, pr, prs, Op.run], .one (.blank i)⟩
  | .concat ps, d, l, h, i, fl, rest, st => by
    rw [Prog.build] at h
    cases hb : Prog.builds k cm ps with
    | error e => rw [hb] at h; cases h
    | ok a =>
      rw [hb] at h; cases h
      rw [pr, syms]
      exact prs_ress hs k w ps a.1 a.2 hb i fl rest st
  | .group p, d, l, h, i, fl, rest, st => by
    rw [Prog.build] at h
    cases hb : Prog.build k cm p with
    | error e => rw [hb] at h; cases h
    | ok a =>
      rw [hb] at h; cases h
      have key : ∀ fl', ∃ ops, pr w a.1 i fl' rest st.flush = runOps ops st ∧ Ress (syms (.group p)) ops := by
        intro fl'
        obtain ⟨ops, h1, h2⟩ := pr_ress hs k w p a.1 a.2 hb i fl' rest st.flush
        refine ⟨.flush :: ops, by rw [h1]; simp [Op.run], ?_⟩
        rw [syms]
        exact .cons .flush h2
      simp only [Afmt.group, pr]
      split
      · exact key true
      · split
        · exact key true
        · exact key fl
  | .indent p, d, l, h, i, fl, rest, st => by
    rw [Prog.build] at h
    cases hb : Prog.build k cm p with
    | error e => rw [hb] at h; cases h
    | ok a =>
      rw [hb] at h; cases h
      rw [syms, indentDoc, pr]
      exact pr_ress hs k w p a.1 a.2 hb _ fl rest st
  | .dedent p, d, l, h, i, fl, rest, st => by
    rw [Prog.build] at h
    cases hb : Prog.build k cm p with
    | error e => rw [hb] at h; cases h
    | ok a =>
      rw [hb] at h; cases h
      rw [syms, dedentDoc, pr]
      exact pr_ress hs k w p a.1 a.2 hb _ fl rest st
  | .pre id, d, l, h, i, fl, rest, st => by
    rw [Prog.build] at h
    cases hb : getBucket cm id with
    | error e => rw [hb] at h; cases h
    | ok b => rw [hb] at h; cases h; rw [(hs _ _ hb).1]; exact ⟨[], by simp [preDocs, pr, prs], .nil⟩
  | .post id, d, l, h, i, fl, rest, st => by
    rw [Prog.build] at h
    cases hb : getBucket cm id with
    | error e => rw [hb] at h; cases h
    | ok b => rw [hb] at h; cases h; rw [(hs _ _ hb).2.1]; exact ⟨[], by simp [postDocs, pr, prs], .nil⟩
  | .rootDangling id, d, l, h, i, fl, rest, st => by
    rw [Prog.build] at h
    cases hb : getBucket cm id with
    | error e => rw [hb] at h; cases h
    | ok b => rw [hb] at h; cases h; rw [(hs _ _ hb).2.2]; exact ⟨[], by simp [pr, prs], .nil⟩
  | .dangling id, d, l, h, i, fl, rest, st => by
    rw [Prog.build] at h
    cases hb : getBucket cm id with
    | error e => rw [hb] at h; cases h
    | ok b =>
      rw [hb] at h
      dsimp only at h
      rw [if_pos (hs _ _ hb).2.2] at h
      cases h
  | .punct p, d, l, h, i, fl, rest, st => by
    rw [Prog.build] at h
    cases hb : getBucket cm p.id with
    | error e => rw [hb] at h; cases h
    | ok b =>
      rw [hb] at h; cases h
      rw [puncDocs_silent (hs _ _ hb).1 (hs _ _ hb).2.1]
      exact ⟨_, by simp [Afmt.txt, pr, prs, Op.run]; rfl, .one (.txt p.text _)⟩
  | .ifDangling id p q, d, l, h, i, fl, rest, st => by
    rw [Prog.build] at h
    cases hb : getBucket cm id with
    | error e => rw [hb] at h; cases h
    | ok b =>
      rw [hb] at h
      dsimp only at h
      rw [if_neg (by simp [(hs _ _ hb).2.2])] at h
      rw [syms]; exact pr_ress hs k w q d l h i fl rest st
  | .fail e, d, l, h, i, fl, rest, st => by rw [Prog.build] at h; cases h
theorem prs_ress {cm : CMap} (hs : Silent cm) (k w : Nat) : ∀ (ps : List Prog) (ds : List Doc) (l : List Comment),
    Prog.builds k cm ps = .ok (ds, l) → ∀ (i : Nat) (fl : Bool) (rest : List Chunk) (st : PSt),
    ∃ ops, prs w ds i fl rest st = runOps ops st ∧ Ress (symss ps) ops
  | [], ds, l, h, i, fl, rest, st => by
    rw [Prog.builds] at h; cases h
    exact ⟨[], by simp [prs], .nil⟩
  | p :: ps, ds, l, h, i, fl, rest, st => by
    rw [Prog.builds] at h
    cases h1 : Prog.build k cm p with
    | error e => rw [h1] at h; cases h
    | ok a =>
      rw [h1] at h
      cases h2 : Prog.builds k cm ps with
      | error e => rw [h2] at h; cases h
      | ok b =>
        rw [h2] at h; cases h
        obtain ⟨o1, e1, r1⟩ := pr_ress hs k w p a.1 a.2 h1 i fl
          (b.1.map (fun d => { doc := d, indent := i, flat := fl }) ++ rest) st
        obtain ⟨o2, e2, r2⟩ := prs_ress hs k w ps b.1 b.2 h2 i fl rest
          (pr w a.1 i fl (b.1.map (fun d => { doc := d, indent := i, flat := fl }) ++ rest) st)
        refine ⟨o1 ++ o2, ?_, ?_⟩
        · rw [prs, e2, runOps_append, e1]
        · rw [symss]; exact r1.append r2
end

/-! ### The abstract machine -/

/-- `I`: after a visible character; `P`: a line break may be pending; `F`: anything may have been written since the last
visible character, but no line break between members; `S`: a line break between members is pending; `G`: such a line
break is pending or written. -/
inductive St where
  | I | P | F | S | G | bad
  deriving DecidableEq

def St.rank : St → Nat
  | .I => 0 | .P => 1 | .F => 2 | .S => 3 | .G => 4 | .bad => 5

instance : LE St := ⟨fun a b => a.rank ≤ b.rank⟩
instance (a b : St) : Decidable (a ≤ b) := inferInstanceAs (Decidable (a.rank ≤ b.rank))

def fl : St → St
  | .I => .I | .P => .F | .F => .F | .S => .G | .G => .G | .bad => .bad

def brk : St → St
  | .I => .P | .P => .P | .F => .F | .S => .S | .G => .bad | .bad => .bad

def sp : St → St
  | .I => .S | .P => .S | .F => .bad | .S => .bad | .G => .bad | .bad => .bad

def tx : St → St
  | .bad => .bad
  | _ => .I

def step (a : St) : Sym → St
  | .txt s => if clean s = true then (if ink s = [] then fl a else tx a) else .bad
  | .flush => fl a
  | .br => brk a
  | .may => brk a
  | .sep _ => sp a

def run (a : St) : List Sym → St
  | [] => a
  | x :: xs => run (step a x) xs

theorem run_append (a : St) (xs ys : List Sym) : run a (xs ++ ys) = run (run a xs) ys := by
  induction xs generalizing a with
  | nil => rfl
  | cons x xs ih => exact ih _

theorem St.le_refl (a : St) : a ≤ a := Nat.le_refl _
theorem St.le_trans {a b c : St} (h : a ≤ b) (h' : b ≤ c) : a ≤ c := Nat.le_trans h h'

theorem fl_mono {a b : St} (h : a ≤ b) : fl a ≤ fl b := by revert h; cases a <;> cases b <;> decide
theorem brk_mono {a b : St} (h : a ≤ b) : brk a ≤ brk b := by revert h; cases a <;> cases b <;> decide
theorem sp_mono {a b : St} (h : a ≤ b) : sp a ≤ sp b := by revert h; cases a <;> cases b <;> decide
theorem tx_mono {a b : St} (h : a ≤ b) : tx a ≤ tx b := by revert h; cases a <;> cases b <;> decide

theorem step_mono {a b : St} (h : a ≤ b) (x : Sym) : step a x ≤ step b x := by
  cases x with
  | txt s =>
    simp only [step]
    split
    · split
      · exact fl_mono h
      · exact tx_mono h
    · exact St.le_refl _
  | flush => exact fl_mono h
  | br => exact brk_mono h
  | may => exact brk_mono h
  | sep b => exact sp_mono h

theorem run_mono {a b : St} (h : a ≤ b) (xs : List Sym) : run a xs ≤ run b xs := by
  induction xs generalizing a b with
  | nil => exact h
  | cons x xs ih => exact ih (step_mono h x)

theorem run_bad (xs : List Sym) : run .bad xs = .bad := by
  induction xs with
  | nil => rfl
  | cons x xs ih =>
    have : step .bad x = .bad := by
      cases x with
      | txt s => simp only [step]; split <;> (try split) <;> rfl
      | _ => rfl
    rw [run, this, ih]

/-! ### What the machine says about the output -/

/-- For every visible character of the symbols the member break since the last one, if any. -/
def marks (m : Option Bool) : List Sym → List (Option Bool)
  | [] => []
  | .txt s :: r => if ink s = [] then marks m r else m :: (List.replicate ((ink s).length - 1) none ++ marks none r)
  | .flush :: r | .br :: r | .may :: r => marks m r
  | .sep b :: r => marks (some b) r

/-- The line breaks required by a mark. -/
def Fits (g : Nat) : Option Bool → Prop
  | none => True
  | some b => g = if b then 2 else 1

/-- Pairwise. -/
inductive All2 {α β : Type} (R : α → β → Prop) : List α → List β → Prop
  | nil : All2 R [] []
  | cons {a b as bs} : R a b → All2 R as bs → All2 R (a :: as) (b :: bs)

theorem All2.append {α β : Type} {R : α → β → Prop} {a a' : List α} {b b' : List β} (h : All2 R a b) (h' : All2 R a' b') :
    All2 R (a ++ a') (b ++ b') := by
  induction h with
  | nil => exact h'
  | cons hx _ ih => exact .cons hx ih

theorem All2.free {l : List Nat} : All2 Fits l (List.replicate l.length none) := by
  induction l with
  | nil => exact .nil
  | cons a l ih => exact .cons trivial ih

/-- Newlines asked for by a member break before its last one. -/
def base (b : Bool) : Nat := if b then 1 else 0

/-- The abstract state describes the printer state. -/
def Rel (a : St) (m : Option Bool) (st : PSt) : Prop :=
  match a with
  | .I => m = none ∧ tail 0 st.out = 0 ∧ st.pend = none
  | .P => m = none ∧ tail 0 st.out = 0
  | .F => m = none
  | .S => ∃ b, m = some b ∧ st.pend.isSome = true ∧ tail 0 st.out = base b
  | .G => ∃ b, m = some b ∧ ((st.pend.isSome = true ∧ tail 0 st.out = base b) ∨
      (st.pend = none ∧ tail 0 st.out = base b + 1))
  | .bad => False

theorem tail_flush {st : PSt} {i : Nat} (h : st.pend = some i) : tail 0 st.flush.out = tail 0 st.out + 1 := by
  simp only [PSt.flush, h]
  rw [tail_append]
  simp only [tail, if_true]
  exact tail_spaces _ _

theorem gaps_flush (st : PSt) : gaps 0 st.flush.out = gaps 0 st.out := by
  cases h : st.pend with
  | none => simp only [PSt.flush, h]
  | some i =>
    simp only [PSt.flush, h]
    rw [gaps_append]
    simp only [gaps, if_true]
    rw [gaps_spaces, List.append_nil]

theorem flush_pend (st : PSt) : st.flush.pend = none := by
  cases h : st.pend <;> simp [PSt.flush, h]

theorem flush_none {st : PSt} (h : st.pend = none) : st.flush = st := by simp [PSt.flush, h]

theorem rel_flush {a : St} {m : Option Bool} {st : PSt} (h : Rel a m st) : Rel (fl a) m st.flush := by
  cases a with
  | I => rw [flush_none h.2.2]; exact h
  | P => exact h.1
  | F => exact h
  | S =>
    obtain ⟨b, h1, h2, h3⟩ := h
    obtain ⟨i, hi⟩ := Option.isSome_iff_exists.1 h2
    exact ⟨b, h1, Or.inr ⟨flush_pend st, by rw [tail_flush hi, h3]⟩⟩
  | G =>
    obtain ⟨b, h1, ⟨h2, h3⟩ | ⟨h2, h3⟩⟩ := h
    · obtain ⟨i, hi⟩ := Option.isSome_iff_exists.1 h2
      exact ⟨b, h1, Or.inr ⟨flush_pend st, by rw [tail_flush hi, h3]⟩⟩
    · rw [flush_none h2]; exact ⟨b, h1, Or.inr ⟨h2, h3⟩⟩
  | bad => exact h

/-- After writing the pending line break, a member break has exactly its newlines. -/
theorem rel_fits {a : St} {m : Option Bool} {st : PSt} (h : Rel a m st) : Fits (tail 0 st.flush.out) m := by
  cases a with
  | I => rw [h.1]; trivial
  | P => rw [h.1]; trivial
  | F => rw [show m = none from h]; trivial
  | S =>
    obtain ⟨b, h1, h2, h3⟩ := h
    obtain ⟨i, hi⟩ := Option.isSome_iff_exists.1 h2
    rw [h1, tail_flush hi, h3]; cases b <;> rfl
  | G =>
    obtain ⟨b, h1, ⟨h2, h3⟩ | ⟨h2, h3⟩⟩ := h
    · obtain ⟨i, hi⟩ := Option.isSome_iff_exists.1 h2
      rw [h1, tail_flush hi, h3]; cases b <;> rfl
    · rw [flush_none h2, h1, h3]; cases b <;> rfl
  | bad => exact h.elim

theorem rel_put {a : St} {m : Option Bool} {st st' : PSt} (h : Rel a m st) (hp : st'.pend = st.pend)
    (ht : tail 0 st'.out = tail 0 st.out) : Rel a m st' := by
  cases a <;> simp only [Rel] at h ⊢ <;> simpa only [hp, ht] using h

theorem putText_out (st : PSt) (s : Str) (n : Nat) (hi : ink s ≠ []) : (st.putText s n).out = st.out ++ s := by
  have : ¬(s = [' '] ∧ endsWithSpace st.out = true) := by
    rintro ⟨rfl, _⟩; exact hi (by decide)
  simp [PSt.putText, this]

theorem putText_pend (st : PSt) (s : Str) (n : Nat) : (st.putText s n).pend = st.pend := by
  unfold PSt.putText; split <;> rfl

/-- The output agrees with the marks of the symbols printed, as long as the machine does not go bad. -/
theorem run_fits {xs : List Sym} {ops : List Op} (h : Ress xs ops) : ∀ {a : St} {m : Option Bool} {st : PSt}
    {ms : List (Option Bool)}, Rel a m st → All2 Fits (gaps 0 st.out) ms → run a xs ≠ .bad →
    All2 Fits (gaps 0 (runOps ops st).out) (ms ++ marks m xs) := by
  induction h with
  | nil => intro a m st ms _ h2 _; simpa [marks] using h2
  | @cons x xs o os hx hr ih =>
    intro a m st ms h1 h2 h3
    rw [runOps_append]
    have hb : step a x ≠ .bad := by
      intro e; rw [run, e, run_bad] at h3; exact h3 rfl
    rw [run] at h3
    cases hx with
    | txt s n =>
      simp only [step] at h3 hb
      split at h3
      · rename_i hc
        rw [if_pos hc] at hb
        simp only [clean, Bool.and_eq_true] at hc
        simp only [runOps_cons, runOps_nil, Op.run]
        split at h3
        · rename_i hi
          rw [if_pos hi] at hb
          rw [marks, if_pos hi]
          have e1 : gaps 0 (st.flush.putText s n).out = gaps 0 st.out := by
            unfold PSt.putText
            split
            · exact gaps_flush st
            · dsimp only; rw [gaps_append, gaps_blank hi, List.append_nil]; exact gaps_flush st
          have e2 : tail 0 (st.flush.putText s n).out = tail 0 st.flush.out := by
            unfold PSt.putText
            split
            · rfl
            · dsimp only; rw [tail_append, tail_blank hc.1 hi]
          exact ih (rel_put (rel_flush h1) (putText_pend _ _ _) e2) (by rw [e1]; exact h2) h3
        · rename_i hi
          rw [if_neg hi] at hb
          rw [marks, if_neg hi]
          obtain ⟨g, hg⟩ := gaps_cleanL hc.1 hi (tail 0 st.flush.out)
          have hl : g.length = (ink s).length - 1 := by
            have := gaps_length s (tail 0 st.flush.out)
            rw [hg] at this; simp at this; omega
          have e1 : gaps 0 (st.flush.putText s n).out = gaps 0 st.out ++ (tail 0 st.flush.out :: g) := by
            rw [putText_out _ _ _ hi, gaps_append, hg, gaps_flush]
          have e2 : tail 0 (st.flush.putText s n).out = 0 := by
            rw [putText_out _ _ _ hi, tail_append]; exact tail_cleanR hc.2 hi _
          have htx : tx a = .I := by cases a <;> first | rfl | exact absurd rfl hb
          rw [htx] at h3
          have := ih (a := .I) (m := none) (st := st.flush.putText s n)
            (ms := ms ++ (m :: List.replicate ((ink s).length - 1) none))
            ⟨rfl, e2, by rw [putText_pend, flush_pend]⟩
            (by rw [e1]; exact h2.append (.cons (rel_fits h1) (by rw [← hl]; exact All2.free))) h3
          simpa using this
      · exact absurd (run_bad xs) h3
    | flush =>
      simp only [runOps_cons, runOps_nil, Op.run, marks]
      exact ih (rel_flush h1) (by rw [gaps_flush]; exact h2) h3
    | pend i =>
      simp only [runOps_cons, runOps_nil, Op.run, marks]
      refine ih (a := brk a) ?_ h2 h3
      cases a with
      | I => exact ⟨h1.1, h1.2.1⟩
      | P => exact h1
      | F => exact h1
      | S => obtain ⟨b, e1, _, e3⟩ := h1; exact ⟨b, e1, rfl, e3⟩
      | G => exact absurd rfl hb
      | bad => exact absurd rfl hb
    | space =>
      simp only [runOps_cons, runOps_nil, Op.run, marks]
      have e1 : gaps 0 st.putSpace.out = gaps 0 st.out := by
        simp only [PSt.putSpace]; rw [gaps_append]; simp [gaps]
      have e2 : tail 0 st.putSpace.out = tail 0 st.out := by
        simp only [PSt.putSpace]; rw [tail_append]; simp [tail]
      refine ih (a := brk a) (rel_put (st := st) ?_ rfl e2) (by rw [e1]; exact h2) h3
      cases a with
      | I => exact ⟨h1.1, h1.2.1⟩
      | P => exact h1
      | F => exact h1
      | S => exact h1
      | G => exact absurd rfl hb
      | bad => exact absurd rfl hb
    | pendm i =>
      simp only [runOps_cons, runOps_nil, Op.run, marks]
      refine ih (a := brk a) ?_ h2 h3
      cases a with
      | I => exact ⟨h1.1, h1.2.1⟩
      | P => exact h1
      | F => exact h1
      | S => obtain ⟨b, e1, _, e3⟩ := h1; exact ⟨b, e1, rfl, e3⟩
      | G => exact absurd rfl hb
      | bad => exact absurd rfl hb
    | none =>
      simp only [runOps_nil, marks]
      refine ih (a := brk a) ?_ h2 h3
      cases a with
      | I => exact ⟨h1.1, h1.2.1⟩
      | P => exact h1
      | F => exact h1
      | S => exact h1
      | G => exact absurd rfl hb
      | bad => exact absurd rfl hb
    | blank i =>
      simp only [runOps_cons, runOps_nil, Op.run, marks]
      have e1 : gaps 0 st.bareNewline.out = gaps 0 st.out := by
        simp only [PSt.bareNewline]; rw [gaps_append]; simp [gaps]
      have e2 : tail 0 st.bareNewline.out = tail 0 st.out + 1 := by
        simp only [PSt.bareNewline]; rw [tail_append]; simp [tail]
      refine ih (a := sp a) ?_ (by rw [← e1] at h2; exact h2) h3
      cases a with
      | I => exact ⟨true, rfl, rfl, e2.trans (by rw [h1.2.1]; rfl)⟩
      | P => exact ⟨true, rfl, rfl, e2.trans (by rw [h1.2]; rfl)⟩
      | F => exact absurd rfl hb
      | S => exact absurd rfl hb
      | G => exact absurd rfl hb
      | bad => exact absurd rfl hb
    | line i =>
      simp only [runOps_cons, runOps_nil, Op.run, marks]
      refine ih (a := sp a) ?_ h2 h3
      cases a with
      | I => exact ⟨false, rfl, rfl, h1.2.1⟩
      | P => exact ⟨false, rfl, rfl, h1.2⟩
      | F => exact absurd rfl hb
      | S => exact absurd rfl hb
      | G => exact absurd rfl hb
      | bad => exact absurd rfl hb

/-- The layout of a program without comments agrees with the marks of its symbols. -/
theorem layout_fits {cm : CMap} (hs : Silent cm) {k : Nat} {p : Prog} {d : Doc} {l : List Comment}
    (h : p.build k cm = .ok (d, l)) (w : Nat) (hr : run .I (syms p) ≠ .bad) :
    All2 Fits (gaps 0 (layout w d)) (marks none (syms p)) := by
  obtain ⟨ops, h1, h2⟩ := pr_ress hs k w p d l h 0 false [] PSt.init
  unfold layout
  rw [gaps_flush, h1]
  have := run_fits h2 (a := .I) (m := none) (st := PSt.init) (ms := []) ⟨rfl, rfl, rfl⟩ .nil hr
  simpa using this

/-- The marks only depend on the visible characters and the member breaks. -/
def marksC (m : Option Bool) : List Ch → List (Option Bool)
  | [] => []
  | .c _ :: r => m :: marksC none r
  | .sep b :: r => marksC (some b) r

theorem marksC_text (m : Option Bool) (s : List Letter) (hs : s ≠ []) (r : List Ch) :
    marksC m (s.map .c ++ r) = m :: (List.replicate (s.length - 1) none ++ marksC none r) := by
  have h : ∀ (s : List Letter), marksC none (s.map .c ++ r) = List.replicate s.length none ++ marksC none r := by
    intro s
    induction s with
    | nil => rfl
    | cons c s ih => simp [marksC, ih, List.replicate_succ]
  cases s with
  | nil => exact absurd rfl hs
  | cons c s => simp [marksC, h]

theorem marks_eq (xs : List Sym) : ∀ m, marks m xs = marksC m (chsOf xs) := by
  induction xs with
  | nil => intro m; rfl
  | cons x xs ih =>
    intro m
    cases x with
    | txt s =>
      simp only [marks, chsOf]
      split
      · rename_i h; rw [ih, letters_nil h]; rfl
      · rename_i h
        have hl : (letters false s).length = (ink s).length := by rw [← letters_ink s false, List.length_map]
        rw [marksC_text _ _ (fun h' => h (by rw [← letters_ink s false, h']; rfl)), ih, hl]
    | flush => exact ih m
    | br => exact ih m
    | may => exact ih m
    | sep b => exact ih _

end Afmt.Lines
