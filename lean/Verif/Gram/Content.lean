import Verif.Gram.Lang
import Verif.ProgLemmas

/-!
# Content of programs compared with content of trees

A content is a list of code characters, line breaks between the members of a body, and comments.  `Sx x k`: the result
`x` of running a program is a success, prints the code characters and line breaks of `k` (up to letter case where it does
not matter) in order, prints no comment more often than it occurs in `k`, and moves no comment over a code character
whose letter case matters.  It moves no firm comment over anything but comments that are not firm.
-/

namespace Afmt.Gram
open Prog

/-- A code character, or the line break between two members of a body with the flag whether an empty line belongs to
it. -/
inductive Ch where
  | c (x : Letter)
  | sep (blank : Bool)
  deriving DecidableEq

/-- How a comment keeps its place: exactly, up to characters whose letter case does not matter, or not at all. -/
inductive Hold where
  | firm
  | loose
  | wild
deriving DecidableEq, Repr

/-- Code characters (with the flag whether the letter case is irrelevant), line breaks between members and comments (with
how they keep their place). -/
abbrev Cont := List (Sum (Bool × Ch) (Hold × Comment))

/-- Code and line breaks between members. -/
def codeC (k : Cont) : List (Bool × Ch) := k.filterMap fun
  | .inl x => some x
  | .inr _ => none

/-- Comments of a content. -/
def coms (k : Cont) : List Comment := k.filterMap fun
  | .inl _ => none
  | .inr c => some c.2

/-- Comments as content. -/
def comC (h : Hold) (cs : List Comment) : Cont := cs.map (fun c => .inr (h, c))

/-- The content without the comments that are not firm. -/
def firmly (k : Cont) : Cont := k.filter fun
  | .inl _ => true
  | .inr c => c.1 == .firm

/-- The character is one whose letter case matters. -/
def isAnchor : Bool × Ch → Bool
  | (b, .c _) => !b
  | (_, .sep _) => false

/-- The number of characters whose letter case matters. -/
def anchors (k : List (Bool × Ch)) : Nat := k.countP isAnchor

/-- How a comment keeps its place, with the number of such characters before it unless it does not. -/
def Hold.spot (h : Hold) (n : Nat) : Hold × Option Nat := (h, if h = .wild then none else some n)

/-- The comments with the number of such characters before them, counted from `n`. -/
def spots : Nat → Cont → List ((Hold × Option Nat) × Comment)
  | _, [] => []
  | n, .inl x :: k => spots (if isAnchor x then n + 1 else n) k
  | n, .inr c :: k => (c.1.spot n, c.2) :: spots n k

/-- Code without line breaks. -/
def lift (k : List (Bool × Letter)) : List (Bool × Ch) := k.map (fun e => (e.1, .c e.2))

/-- Code as content. -/
def inlC (k : List (Bool × Letter)) : Cont := (lift k).map .inl

/-- A line break as content. -/
def sepC (b : Bool) : Cont := [.inl (false, .sep b)]

/-- The code characters with the flags of words. -/
def lets (k : List (Bool × Ch)) : List (Bool × Letter) := k.filterMap fun
  | (b, .c x) => some (b, x)
  | (_, .sep _) => none

/-- Without the flags of words. -/
def bare (k : List (Bool × Letter)) : List (Bool × Char) := k.map (fun e => (e.1, e.2.1))

/-- The code characters. -/
def chars (k : List (Bool × Ch)) : List (Bool × Char) := bare (lets k)

@[simp] theorem codeC_append (a b : Cont) : codeC (a ++ b) = codeC a ++ codeC b := List.filterMap_append
@[simp] theorem coms_append (a b : Cont) : coms (a ++ b) = coms a ++ coms b := List.filterMap_append
@[simp] theorem codeC_nil : codeC [] = [] := rfl
@[simp] theorem coms_nil : coms [] = [] := rfl
@[simp] theorem codeC_inl (k : List (Bool × Letter)) : codeC (inlC k) = lift k := by
  simp [codeC, inlC, List.filterMap_map, Function.comp_def]
@[simp] theorem coms_inl (k : List (Bool × Letter)) : coms (inlC k) = [] := by
  simp [coms, inlC, List.filterMap_map, Function.comp_def]
@[simp] theorem codeC_com (f : Hold) (k : List Comment) : codeC (comC f k) = [] := by
  simp [codeC, comC, List.filterMap_map, Function.comp_def]
@[simp] theorem coms_com (f : Hold) (k : List Comment) : coms (comC f k) = k := by
  simp [coms, comC, List.filterMap_map, Function.comp_def]
@[simp] theorem comC_nil (f : Hold) : comC f [] = [] := rfl
theorem comC_append (f : Hold) (a b : List Comment) : comC f (a ++ b) = comC f a ++ comC f b := List.map_append
@[simp] theorem firmly_append (a b : Cont) : firmly (a ++ b) = firmly a ++ firmly b := List.filter_append _ _
@[simp] theorem firmly_nil : firmly [] = [] := rfl
@[simp] theorem firmly_com (f : Hold) (k : List Comment) : firmly (comC f k) = if f = .firm then comC f k else [] := by
  induction k with
  | nil => cases f <;> rfl
  | cons c k ih =>
    have : firmly (comC f (c :: k)) = (if f = .firm then [.inr (f, c)] else []) ++ firmly (comC f k) := by cases f <;> rfl
    rw [this, ih]
    cases f <;> rfl
@[simp] theorem firmly_inl (k : List (Bool × Letter)) : firmly (inlC k) = inlC k := by
  induction k with
  | nil => rfl
  | cons c k ih => exact congrArg (_ :: ·) ih
@[simp] theorem firmly_sep (b : Bool) : firmly (sepC b) = sepC b := rfl
theorem firmly_sub {a b : Cont} (h : a.Sublist b) : (firmly a).Sublist (firmly b) := h.filter _
@[simp] theorem anchors_append (a b : List (Bool × Ch)) : anchors (a ++ b) = anchors a + anchors b := List.countP_append
@[simp] theorem anchors_nil : anchors [] = 0 := rfl
theorem spots_append (b : Cont) : ∀ (a : Cont) (n : Nat), spots n (a ++ b) = spots n a ++ spots (n + anchors (codeC a)) b
  | [], n => rfl
  | .inl x :: a, n => by
    have hc : codeC (.inl x :: a) = x :: codeC a := rfl
    rw [List.cons_append, spots, spots, spots_append b a, hc]
    have : (if isAnchor x = true then n + 1 else n) + anchors (codeC a) = n + anchors (x :: codeC a) := by
      simp only [anchors, List.countP_cons]
      split <;> omega
    rw [this]
  | .inr c :: a, n => by
    have hc : codeC (.inr c :: a) = codeC a := rfl
    rw [List.cons_append, spots, spots, spots_append b a, hc]
    rfl
theorem anchors_folded {k : List (Bool × Letter)} (h : ∀ e ∈ k, e.1 = true) : anchors (lift k) = 0 := by
  rw [anchors, List.countP_eq_zero]
  intro x hx
  simp only [lift, List.mem_map] at hx
  obtain ⟨e, he, rfl⟩ := hx
  simp [isAnchor, h e he]
@[simp] theorem spots_nil (n : Nat) : spots n [] = [] := rfl
theorem spots_shift : ∀ (k : Cont) (n m : Nat), spots (n + m) k = (spots n k).map (fun e => ((e.1.1, e.1.2.map (· + m)), e.2))
  | [], _, _ => rfl
  | .inl x :: k, n, m => by
    rw [spots, spots, ← spots_shift k]
    congr 1
    split <;> omega
  | .inr c :: k, n, m => by
    rw [spots, spots, List.map_cons, spots_shift k]
    obtain ⟨h, c⟩ := c
    cases h <;> rfl
@[simp] theorem spots_com (n : Nat) (f : Hold) (k : List Comment) : spots n (comC f k) = k.map (fun c => (f.spot n, c)) := by
  induction k with
  | nil => rfl
  | cons c k ih => show (f.spot n, c) :: spots n (comC f k) = _; rw [ih]; rfl
@[simp] theorem spots_inl (n : Nat) (k : List (Bool × Letter)) : spots n (inlC k) = [] := by
  induction k generalizing n with
  | nil => rfl
  | cons c k ih => exact ih _
theorem coms_spots : ∀ (k : Cont) (n : Nat), (spots n k).map (·.2) = coms k
  | [], _ => rfl
  | .inl _ :: k, n => coms_spots k _
  | .inr c :: k, n => by
    have hc : coms (.inr c :: k) = c.2 :: coms k := rfl
    rw [spots, hc, List.map_cons, coms_spots k]
@[simp] theorem codeC_sep (b : Bool) : codeC (sepC b) = [(false, .sep b)] := rfl
@[simp] theorem coms_sep (b : Bool) : coms (sepC b) = [] := rfl
theorem lift_append (a b : List (Bool × Letter)) : lift (a ++ b) = lift a ++ lift b := List.map_append
theorem inlC_append (a b : List (Bool × Letter)) : inlC (a ++ b) = inlC a ++ inlC b := by
  rw [inlC, lift_append, List.map_append]; rfl
@[simp] theorem lets_append (a b : List (Bool × Ch)) : lets (a ++ b) = lets a ++ lets b := List.filterMap_append
@[simp] theorem lets_lift (k : List (Bool × Letter)) : lets (lift k) = k := by
  simp [lets, lift, List.filterMap_map, Function.comp_def]
@[simp] theorem lets_nil : lets [] = [] := rfl
@[simp] theorem lets_sep (b : Bool) : lets [(false, .sep b)] = [] := rfl
theorem bare_append (a b : List (Bool × Letter)) : bare (a ++ b) = bare a ++ bare b := List.map_append
@[simp] theorem chars_append (a b : List (Bool × Ch)) : chars (a ++ b) = chars a ++ chars b := by
  rw [chars, lets_append, bare_append]; rfl
@[simp] theorem chars_lift (k : List (Bool × Letter)) : chars (lift k) = bare k := by rw [chars, lets_lift]
@[simp] theorem chars_nil : chars [] = [] := rfl
@[simp] theorem chars_sep (b : Bool) : chars [(false, .sep b)] = [] := rfl

/-- The letters of a text are its visible characters. -/
theorem letters_ink (s : Str) : ∀ w, (letters w s).map (·.1) = ink s := by
  induction s with
  | nil => intro w; rfl
  | cons c s ih =>
    intro w
    rw [letters, ink, List.filter_cons]
    cases h : isBlank c with
    | true => simpa [ink] using ih false
    | false => simpa [ink] using ih (wordChar c)

/-- The text ends with a character of a word; the first argument is the answer for the empty text. -/
def endsWord (w : Bool) : Str → Bool
  | [] => w
  | c :: s => endsWord (!isBlank c && wordChar c) s

/-- The text begins with a character of a word. -/
def headWord : Str → Bool
  | [] => false
  | c :: _ => !isBlank c && wordChar c

theorem letters_append (a b : Str) : ∀ w, letters w (a ++ b) = letters w a ++ letters (endsWord w a) b := by
  induction a with
  | nil => intro w; rfl
  | cons c a ih =>
    intro w
    rw [List.cons_append, letters, letters, endsWord]
    cases isBlank c with
    | true => simpa using ih false
    | false => simpa using ih (wordChar c)

theorem letters_head {s : Str} (h : headWord s = false) (w : Bool) : letters w s = letters false s := by
  cases s with
  | nil => rfl
  | cons c s =>
    rw [letters, letters]
    cases hb : isBlank c with
    | true => rfl
    | false => rw [headWord, hb] at h; simp_all

/-- The letters of two texts one after the other. -/
theorem letters_join {a b : Str} (h : (endsWord false a && headWord b) = false) :
    letters false (a ++ b) = letters false a ++ letters false b := by
  rw [letters_append]
  cases he : endsWord false a with
  | false => rfl
  | true => rw [he, Bool.true_and] at h; rw [letters_head h]

theorem letters_nil {s : Str} (h : ink s = []) (w : Bool) : letters w s = [] := by
  rw [← letters_ink s w] at h; simpa using h

theorem SameL.text : ∀ (s : List Letter) (k : List (Bool × Letter)), k.map (·.2) = s → SameL s k
  | [], [], _ => trivial
  | c :: s, (b, d) :: k, h => by
    simp only [List.map_cons, List.cons.injEq] at h
    exact ⟨Or.inl h.1.symm, SameL.text s k h.2⟩

theorem SameL.folded : ∀ (s : List Letter) (k : List (Bool × Letter)), foldL (k.map (·.2)) = foldL s →
    (∀ e ∈ k, e.1 = true) → SameL s k
  | [], [], _, _ => trivial
  | c :: s, (b, d) :: k, h, hb => by
    simp only [foldL, List.map_cons, List.cons.injEq, Prod.mk.injEq] at h
    refine ⟨Or.inr ⟨hb (b, d) (by simp), h.1.1.symm, h.1.2.symm⟩, SameL.folded s k h.2 (fun e he => hb e (by simp [he]))⟩
  | [], _ :: _, h, _ => by simp [foldL] at h
  | _ :: _, [], h, _ => by simp [foldL] at h

/-- The same words consist of the same characters. -/
theorem SameL.bare : ∀ {s : List Letter} {k : List (Bool × Letter)}, SameL s k → Same (s.map (·.1)) (bare k)
  | [], [], _ => trivial
  | c :: s, (b, d) :: k, h => by
    refine ⟨?_, SameL.bare h.2⟩
    rcases h.1 with h | h
    · exact Or.inl (by rw [h])
    · exact Or.inr ⟨h.1, h.2.1⟩

/-- The same characters and line breaks, up to the letter case of characters whose case does not matter. -/
def SameC : List Ch → List (Bool × Ch) → Prop
  | [], [] => True
  | c :: s, (b, d) :: k => (c = d ∨ ∃ x y, c = .c x ∧ d = .c y ∧ b = true ∧ x.1.toLower = y.1.toLower ∧ x.2 = y.2) ∧ SameC s k
  | _, _ => False

theorem SameC.append : ∀ {a : List Ch} {k : List (Bool × Ch)} {b : List Ch} {k' : List (Bool × Ch)}, SameC a k →
    SameC b k' → SameC (a ++ b) (k ++ k')
  | [], [], _, _, _, h => h
  | _ :: _, _ :: _, _, _, h, h' => ⟨h.1, SameC.append h.2 h'⟩

theorem SameC.lift : ∀ {s : List Letter} {k : List (Bool × Letter)}, SameL s k → SameC (s.map .c) (lift k)
  | [], [], _ => trivial
  | c :: s, (b, d) :: k, h => by
    refine ⟨?_, SameC.lift h.2⟩
    rcases h.1 with h | h
    · exact Or.inl (by rw [h])
    · exact Or.inr ⟨c, d, rfl, rfl, h.1, h.2⟩

/-- The letters printed. -/
def letsOf (s : List Ch) : List Letter := s.filterMap fun
  | .c x => some x
  | .sep _ => none

/-- The code characters printed. -/
def charsOf (s : List Ch) : Str := (letsOf s).map (·.1)

@[simp] theorem letsOf_append (a b : List Ch) : letsOf (a ++ b) = letsOf a ++ letsOf b := List.filterMap_append
@[simp] theorem letsOf_map (s : List Letter) : letsOf (s.map .c) = s := by
  simp [letsOf, List.filterMap_map, Function.comp_def]
@[simp] theorem charsOf_append (a b : List Ch) : charsOf (a ++ b) = charsOf a ++ charsOf b := by
  rw [charsOf, letsOf_append, List.map_append]; rfl
@[simp] theorem charsOf_map (s : List Letter) : charsOf (s.map .c) = s.map (·.1) := by
  rw [charsOf, letsOf_map]

theorem SameC.lets : ∀ {s : List Ch} {k : List (Bool × Ch)}, SameC s k → SameL (letsOf s) (lets k)
  | [], [], _ => trivial
  | .c x :: s, (b, .c y) :: k, h => by
    refine ⟨?_, SameC.lets h.2⟩
    rcases h.1 with h | ⟨_, _, h1, h2, h3, h4⟩
    · exact Or.inl (by cases h; rfl)
    · cases h1; cases h2; exact Or.inr ⟨h3, h4⟩
  | .sep x :: s, (b, .sep y) :: k, h => SameC.lets (s := s) (k := k) h.2
  | .sep x :: s, (b, .c y) :: k, h => by
    rcases h.1 with h | ⟨_, _, h1, h2, h3, h4⟩
    · cases h
    · cases h1
  | .c x :: s, (b, .sep y) :: k, h => by
    rcases h.1 with h | ⟨_, _, h1, h2, h3, h4⟩
    · cases h
    · cases h2

theorem SameC.chars {s : List Ch} {k : List (Bool × Ch)} (h : SameC s k) : Same (charsOf s) (chars k) := h.lets.bare

/-- Printed items and line breaks between members. -/
abbrev SItem := Sum Item Bool

/-- The items. -/
def plainItems (is : List SItem) : List Item := is.filterMap fun
  | .inl x => some x
  | .inr _ => none

@[simp] theorem plainItems_append (a b : List SItem) : plainItems (a ++ b) = plainItems a ++ plainItems b :=
  List.filterMap_append
@[simp] theorem plainItems_inl (a : List Item) : plainItems (a.map .inl) = a := by
  simp [plainItems, List.filterMap_map, Function.comp_def]
@[simp] theorem plainItems_nil : plainItems [] = [] := rfl

/-- The visible characters of the code of an item. -/
def inkItem : SItem → List Ch
  | .inl (.code s) => (letters false s).map .c
  | .inl (.comment _) => []
  | .inr b => [.sep b]

/-- Visible characters of the code among items, and the line breaks. -/
def inks (is : List SItem) : List Ch := is.flatMap inkItem

@[simp] theorem inks_append (a b : List SItem) : inks (a ++ b) = inks a ++ inks b := by simp [inks]
@[simp] theorem inks_nil : inks [] = [] := rfl
@[simp] theorem inks_codeItem (s : Str) : inks ((codeItem s).map .inl) = (letters false s).map .c := by
  unfold codeItem; split <;> simp_all [inks, inkItem, letters_nil]
@[simp] theorem inks_commentItems (cs : List Comment) : inks ((commentItems cs).map .inl) = [] := by
  simp [inks, commentItems, inkItem, List.flatMap_map]
@[simp] theorem inks_sep (b : Bool) : inks [.inr b] = [.sep b] := rfl

/-- Visible characters of the code among items. -/
def inkI (is : List Item) : Str := ((codeOf is).map ink).flatten

theorem charsOf_inks (is : List SItem) : charsOf (inks is) = inkI (plainItems is) := by
  induction is with
  | nil => rfl
  | cons i is ih =>
    have h1 : inks (i :: is) = inkItem i ++ inks is := rfl
    rw [h1, charsOf_append, ih]
    rcases i with (s | c) | b
    · simp [inkItem, plainItems, inkI, codeOf, letters_ink]
    · simp [inkItem, plainItems, inkI, codeOf, charsOf, letsOf]
    · simp [inkItem, plainItems, charsOf, letsOf]

/-- Result of running programs. -/
abbrev Res2 := R (List SItem × List Comment)

mutual
/-- `Prog.items` that keeps the line breaks between members. -/
def items (cm : CMap) : Prog → Res2
  | .txt s => .ok ((codeItem s).map .inl, [])
  | .nl | .softline | .maybeline | .forceBreak => .ok ([], [])
  | .sep b => .ok ([.inr b], [])
  | .concat ps => itemss cm ps
  | .group p | .indent p | .dedent p => items cm p
  | .pre id =>
    match getBucket cm id with
    | .ok b => .ok ((commentItems b.pre).map .inl, b.pre)
    | .error e => .error e
  | .post id =>
    match getBucket cm id with
    | .ok b => .ok ((commentItems b.post).map .inl, b.post)
    | .error e => .error e
  | .dangling id =>
    match getBucket cm id with
    | .ok b => if b.dangling = [] then .error .unsupported else .ok ((commentItems b.dangling).map .inl, b.dangling)
    | .error e => .error e
  | .rootDangling id =>
    match getBucket cm id with
    | .ok b => .ok ((commentItems b.dangling).map .inl, [])
    | .error e => .error e
  | .punct p =>
    match getBucket cm p.id with
    | .ok b =>
      .ok ((commentItems (b.pre.filter (fun c => !c.isLine))).map .inl ++ ((codeItem p.text).map .inl ++
        (commentItems (b.pre.filter Comment.isLine ++ b.post)).map .inl), b.pre ++ b.post)
    | .error e => .error e
  | .ifDangling id p q =>
    match getBucket cm id with
    | .ok b => if b.dangling ≠ [] then items cm p else items cm q
    | .error e => .error e
  | .fail e => .error e
/-- `items` of programs. -/
def itemss (cm : CMap) : List Prog → Res2
  | [] => .ok ([], [])
  | p :: ps =>
    match items cm p with
    | .error e => .error e
    | .ok (is, l) =>
      match itemss cm ps with
      | .error e => .error e
      | .ok (js, l') => .ok (is ++ js, l ++ l')
end

/-- The result without line breaks. -/
def dropSeps (x : Res2) : R (List Item × List Comment) := x.map (fun y => (plainItems y.1, y.2))

mutual
theorem items_plain (cm : CMap) : ∀ p : Prog, Prog.items cm p = dropSeps (items cm p)
  | .txt s => by simp [Prog.items, items, dropSeps, Except.map]
  | .nl | .softline | .maybeline | .forceBreak => rfl
  | .sep b => rfl
  | .concat ps => by rw [Prog.items, items, itemss_plain cm ps]
  | .group p | .indent p | .dedent p => by rw [Prog.items, items, items_plain cm p]
  | .pre id | .post id | .rootDangling id => by
    rw [Prog.items, items]; cases getBucket cm id <;> simp [dropSeps, Except.map]
  | .dangling id => by
    rw [Prog.items, items]
    cases getBucket cm id with
    | error e => rfl
    | ok b => dsimp only; split <;> simp [dropSeps, Except.map]
  | .punct p => by
    rw [Prog.items, items]; cases getBucket cm p.id <;> simp [dropSeps, Except.map]
  | .ifDangling id p q => by
    rw [Prog.items, items]
    cases getBucket cm id with
    | error e => rfl
    | ok b =>
      dsimp only
      split
      · exact items_plain cm p
      · exact items_plain cm q
  | .fail e => rfl
theorem itemss_plain (cm : CMap) : ∀ ps : List Prog, Prog.itemss cm ps = dropSeps (itemss cm ps)
  | [] => rfl
  | p :: ps => by
    rw [Prog.itemss, itemss, items_plain cm p, itemss_plain cm ps]
    cases items cm p with
    | error e => rfl
    | ok a => cases itemss cm ps <;> simp [dropSeps, Except.map]
end

/-- Nothing printed. -/
def unit : Res2 := .ok ([], [])

/-- One after the other. -/
def seqR (x y : Res2) : Res2 :=
  match x with
  | .error e => .error e
  | .ok (a, l) =>
    match y with
    | .error e => .error e
    | .ok (b, m) => .ok (a ++ b, l ++ m)

theorem seqR_assoc (x y z : Res2) : seqR (seqR x y) z = seqR x (seqR y z) := by
  cases x with
  | error e => rfl
  | ok a => cases y with
    | error e => rfl
    | ok b => cases z with
      | error e => rfl
      | ok c => simp [seqR]

theorem seqR_unit (x : Res2) : seqR unit x = x := by
  cases x <;> simp [seqR, unit]

theorem seqR_unit_right (x : Res2) : seqR x unit = x := by
  cases x <;> simp [seqR, unit]

/-- A printed item as characters, line breaks and comments. -/
def flatItem : SItem → List (Sum Ch Comment)
  | .inl (.code s) => (letters false s).map (fun x => .inl (.c x))
  | .inl (.comment c) => [.inr c]
  | .inr b => [.inl (.sep b)]

/-- Printed items as characters, line breaks and comments. -/
def flatI (is : List SItem) : List (Sum Ch Comment) := is.flatMap flatItem

@[simp] theorem flatI_append (a b : List SItem) : flatI (a ++ b) = flatI a ++ flatI b := by simp [flatI]
@[simp] theorem flatI_nil : flatI [] = [] := rfl
@[simp] theorem flatI_codeItem (s : Str) : flatI ((codeItem s).map .inl) = (letters false s).map (fun x => .inl (.c x)) := by
  unfold codeItem; split <;> simp_all [flatI, flatItem, letters_nil]
@[simp] theorem flatI_commentItems (cs : List Comment) : flatI ((commentItems cs).map .inl) = cs.map .inr := by
  induction cs with
  | nil => rfl
  | cons c cs ih =>
    have : flatI ((commentItems (c :: cs)).map .inl) = .inr c :: flatI ((commentItems cs).map .inl) := rfl
    rw [this, ih]; rfl
@[simp] theorem flatI_sep (b : Bool) : flatI [.inr b] = [.inl (.sep b)] := rfl

/-- The same characters, line breaks and comments, up to the letter case of characters whose case does not matter. -/
def SameX : List (Sum Ch Comment) → Cont → Prop
  | [], [] => True
  | .inl c :: s, .inl (b, d) :: k =>
    (c = d ∨ ∃ x y, c = .c x ∧ d = .c y ∧ b = true ∧ x.1.toLower = y.1.toLower ∧ x.2 = y.2) ∧ SameX s k
  | .inr c :: s, .inr d :: k => c = d.2 ∧ SameX s k
  | _, _ => False

theorem SameX.append : ∀ {a : List (Sum Ch Comment)} {k : Cont} {b : List (Sum Ch Comment)} {k' : Cont}, SameX a k →
    SameX b k' → SameX (a ++ b) (k ++ k')
  | [], [], _, _, _, h => h
  | .inl _ :: _, .inl (_, _) :: _, _, _, h, h' => ⟨h.1, SameX.append h.2 h'⟩
  | .inr _ :: _, .inr _ :: _, _, _, h, h' => ⟨h.1, SameX.append h.2 h'⟩

theorem SameX.com (f : Hold) : ∀ (cs : List Comment), SameX (cs.map .inr) (comC f cs)
  | [] => trivial
  | _ :: cs => ⟨rfl, SameX.com f cs⟩

theorem SameX.code : ∀ {s : List Ch} {k : List (Bool × Ch)}, SameC s k → SameX (s.map .inl) (k.map .inl)
  | [], [], _ => trivial
  | _ :: _, (_, _) :: _, h => ⟨h.1, SameX.code h.2⟩

/-- The code and the comments of the same characters and comments. -/
theorem SameX.parts {is : List SItem} {k : Cont} : SameX (flatI is) k → SameC (inks is) (codeC k) ∧
    commentsOf (plainItems is) = coms k := by
  have key : ∀ {s : List (Sum Ch Comment)} {k : Cont}, SameX s k →
      SameC (s.filterMap (fun | .inl c => some c | .inr _ => none)) (codeC k) ∧
      s.filterMap (fun | .inl _ => none | .inr c => some c) = coms k := by
    intro s
    induction s with
    | nil => intro k h; cases k with | nil => exact ⟨trivial, rfl⟩ | cons => cases h
    | cons x s ih =>
      intro k h
      cases k with
      | nil => cases x <;> cases h
      | cons y k =>
        cases x with
        | inl c =>
          cases y with
          | inl d => obtain ⟨h1, h2⟩ := ih h.2; exact ⟨⟨h.1, h1⟩, h2⟩
          | inr d => cases h
        | inr c =>
          cases y with
          | inl d => cases h
          | inr d =>
            obtain ⟨h1, h2⟩ := ih h.2
            refine ⟨h1, ?_⟩
            have hc : coms (.inr d :: k) = d.2 :: coms k := rfl
            rw [hc, ← h.1, ← h2]
            rfl
  intro h
  obtain ⟨h1, h2⟩ := key h
  rw [filter_code] at h1
  rw [filter_com] at h2
  exact ⟨h1, h2⟩
where
  filter_code : ∀ is : List SItem, (flatI is).filterMap (fun | .inl c => some c | .inr _ => none) = inks is
    | [] => rfl
    | i :: is => by
      have : flatI (i :: is) = flatItem i ++ flatI is := rfl
      have e : inks (i :: is) = inkItem i ++ inks is := rfl
      rw [this, List.filterMap_append, e, filter_code is]
      congr 1
      rcases i with (s | c) | b
      · simp [flatItem, inkItem, List.filterMap_map, Function.comp_def]
      · rfl
      · rfl
  filter_com : ∀ is : List SItem, (flatI is).filterMap (fun | .inl _ => none | .inr c => some c) = commentsOf (plainItems is)
    | [] => rfl
    | i :: is => by
      have : flatI (i :: is) = flatItem i ++ flatI is := rfl
      rw [this, List.filterMap_append, filter_com is]
      rcases i with (s | c) | b
      · simp [flatItem, plainItems, commentsOf, List.filterMap_map, Function.comp_def]
      · simp [flatItem, plainItems, commentsOf]
      · simp [flatItem, plainItems]

/-- The result prints the content: `k'` is what it prints, with the flags of `k`. -/
def Sx (x : Res2) (k : Cont) : Prop :=
  ∃ is log k', x = .ok (is, log) ∧ SameX (flatI is) k' ∧ codeC k' = codeC k ∧ Within (spots 0 k') (spots 0 k) ∧
    (firmly k').Sublist (firmly k)

/-- The code and the comments printed. -/
theorem Sx.parts {x : Res2} {k : Cont} (h : Sx x k) :
    ∃ is log, x = .ok (is, log) ∧ SameC (inks is) (codeC k) ∧ Within (commentsOf (plainItems is)) (coms k) := by
  obtain ⟨is, log, k', rfl, h1, h2, h3, -⟩ := h
  obtain ⟨h4, h5⟩ := h1.parts
  refine ⟨is, log, rfl, h2 ▸ h4, ?_⟩
  rw [h5, ← coms_spots k' 0, ← coms_spots k 0]
  exact h3.map _

/-- A content printed as it is. -/
theorem sx_exact {is : List SItem} {log : List Comment} {k : Cont} (h : SameX (flatI is) k) : Sx (.ok (is, log)) k :=
  ⟨is, log, k, rfl, h, rfl, Within.refl _, List.Sublist.refl _⟩

theorem sx_unit : Sx unit [] := sx_exact (is := []) trivial

theorem sx_seq {x y : Res2} {k k' : Cont} (h : Sx x k) (h' : Sx y k') : Sx (seqR x y) (k ++ k') := by
  obtain ⟨is, log, j, rfl, h1, h2, h3, h4⟩ := h
  obtain ⟨is', log', j', rfl, h1', h2', h3', h4'⟩ := h'
  refine ⟨is ++ is', log ++ log', j ++ j', rfl, by simpa using h1.append h1', by simp [h2, h2'], ?_, ?_⟩
  · rw [spots_append, spots_append, h2]
    refine h3.append ?_
    rw [Nat.zero_add, ← Nat.zero_add (anchors _), spots_shift, spots_shift]
    exact h3'.map _
  · simpa using h4.append h4'

theorem within_trans {α : Type} {a b c : List α} (h : Within a b) (h' : Within b c) : Within a c := by
  obtain ⟨x, hx⟩ := h
  obtain ⟨y, hy⟩ := h'
  exact ⟨x ++ y, hy.trans (by rw [← List.append_assoc]; exact List.Perm.append_right _ hx)⟩

/-- Comments of the content that are not printed, and a different order of comments between two characters whose letter
case matters, do not matter as long as they are not firm. -/
theorem sx_weaken {x : Res2} {k k' : Cont} (h : Sx x k) (hc : codeC k = codeC k') (hw : Within (spots 0 k) (spots 0 k'))
    (hf : (firmly k).Sublist (firmly k')) : Sx x k' := by
  obtain ⟨is, log, j, rfl, h1, h2, h3, h4⟩ := h
  exact ⟨is, log, j, rfl, h1, h2.trans hc, within_trans h3 hw, h4.trans hf⟩

/-- Nothing left out. -/
theorem firmly_eq {k k' : Cont} (h : (firmly k').Sublist (firmly k)) (hp : (spots 0 k').Perm (spots 0 k))
    (hc : codeC k' = codeC k) : firmly k' = firmly k := by
  have key : ∀ (k : Cont) (n : Nat), (firmly k).length = (codeC k).length + (spots n k).countP (fun e => e.1.1 == .firm) := by
    intro k
    induction k with
    | nil => intro n; rfl
    | cons x k ih =>
      intro n
      cases x with
      | inl x =>
        have e1 : firmly (.inl x :: k) = .inl x :: firmly k := rfl
        have e2 : codeC (.inl x :: k) = x :: codeC k := rfl
        rw [e1, e2, List.length_cons, List.length_cons, spots, ih (if isAnchor x then n + 1 else n)]
        omega
      | inr c =>
        have e2 : codeC (.inr c :: k) = codeC k := rfl
        rw [e2, spots, List.countP_cons, ← Nat.add_assoc, ← ih n]
        obtain ⟨h, c⟩ := c
        cases h <;> rfl
  refine h.eq_of_length ?_
  rw [key k' 0, key k 0, hc, hp.countP_eq]

/-- The code without the comments. -/
theorem codeC_sub : ∀ k : Cont, ((codeC k).map .inl).Sublist k
  | [] => List.Sublist.slnil
  | .inl x :: k => (codeC_sub k).cons_cons _
  | .inr _ :: k => (codeC_sub k).cons _

/-- Comments left out. -/
theorem sx_leave {x : Res2} {k k' : Cont} (h : Sx x k) (hs : k.Sublist k') (hc : codeC k = codeC k') : Sx x k' := by
  refine sx_weaken h hc ?_ (firmly_sub hs)
  · have key : ∀ {k k' : Cont}, k.Sublist k' → codeC k = codeC k' → ∀ n, Within (spots n k) (spots n k') := by
      intro k k' h
      induction h with
      | slnil => intro _ n; exact Within.nil _
      | @cons k k' x hs ih =>
        intro hc n
        cases x with
        | inl x =>
          have hl := (hs.filterMap (fun | .inl x => some x | .inr _ => none : Sum (Bool × Ch) (Hold × Comment) → Option (Bool × Ch))).length_le
          have : (codeC k).length = (codeC k').length + 1 := by rw [hc]; rfl
          have hl : (codeC k).length ≤ (codeC k').length := hl
          omega
        | inr c =>
          obtain ⟨e, he⟩ := ih hc n
          exact ⟨(c.1.spot n, c.2) :: e, (he.cons _).trans (List.perm_middle.symm)⟩
      | @cons_cons k k' x hs ih =>
        intro hc n
        cases x with
        | inl x =>
          have hc' : x :: codeC k = x :: codeC k' := hc
          exact ih (List.cons.inj hc').2 _
        | inr c => exact (Within.refl [(c.1.spot n, c.2)]).append (ih hc n)
    exact key hs hc 0

section
variable (cm : CMap)

theorem itemss_nil : itemss cm [] = unit := by rw [itemss]; rfl
theorem itemss_cons (p : Prog) (ps : List Prog) : itemss cm (p :: ps) = seqR (items cm p) (itemss cm ps) := by
  rw [itemss, seqR.eq_def]
theorem itemss_append (ps qs : List Prog) : itemss cm (ps ++ qs) = seqR (itemss cm ps) (itemss cm qs) := by
  induction ps with
  | nil => rw [itemss_nil, seqR_unit]; rfl
  | cons p ps ih => rw [List.cons_append, itemss_cons, itemss_cons, seqR_assoc, ih]
theorem itemss_one (p : Prog) : itemss cm [p] = items cm p := by rw [itemss_cons, itemss_nil, seqR_unit_right]

theorem items_concat (ps : List Prog) : items cm (.concat ps) = itemss cm ps := by rw [items]
theorem items_group (p : Prog) : items cm (.group p) = items cm p := by rw [items]
theorem items_indent (p : Prog) : items cm (.indent p) = items cm p := by rw [items]
theorem items_dedent (p : Prog) : items cm (.dedent p) = items cm p := by rw [items]
theorem items_nl : items cm .nl = unit := by rw [items]; rfl
theorem items_softline : items cm .softline = unit := by rw [items]; rfl
theorem items_maybeline : items cm .maybeline = unit := by rw [items]; rfl
theorem items_forceBreak : items cm .forceBreak = unit := by rw [items]; rfl
theorem items_blank {s : Str} (h : ink s = []) : items cm (.txt s) = unit := by rw [items]; simp [codeItem, h, unit]
theorem items_space : items cm (t " ") = unit := items_blank cm (by decide)
theorem items_nil : items cm Prog.nil = unit := items_blank cm (by decide)
theorem items_ite {c : Prop} [Decidable c] (p q : Prog) :
    items cm (if c then p else q) = if c then items cm p else items cm q := by split <;> rfl
theorem itemss_ite {c : Prop} [Decidable c] (p q : List Prog) :
    itemss cm (if c then p else q) = if c then itemss cm p else itemss cm q := by split <;> rfl
theorem itemss_opt_some (p : Prog) : itemss cm (opt (some p)) = items cm p := itemss_one cm p
theorem itemss_opt_none : itemss cm (opt none) = unit := itemss_nil cm
theorem items_groupConcat (ps : List Prog) : items cm (Prog.groupConcat ps) = itemss cm ps := by
  rw [Prog.groupConcat, items_group, items_concat]
theorem items_groupIndent (p : Prog) : items cm (Prog.groupIndent p) = items cm p := by
  rw [Prog.groupIndent, items_group, items_indent]
theorem items_groupIndentConcat (ps : List Prog) : items cm (Prog.groupIndentConcat ps) = itemss cm ps := by
  rw [Prog.groupIndentConcat, items_group, items_indent, items_concat]

/-- The insertable prints nothing. -/
def BlankIns (x : Ins) : Prop := itemss cm x.progs = unit

theorem itemss_intersperse {sep : Ins} (h : BlankIns cm sep) : ∀ es, itemss cm (Prog.intersperseParts sep es) = itemss cm es
  | [] => rfl
  | [e] => rfl
  | e :: e' :: es => by
    rw [Prog.intersperseParts]
    · rw [itemss_cons, itemss_cons, itemss_append, h, seqR_unit, itemss_intersperse h]
    · simp

theorem items_intersperse {sep : Ins} (h : BlankIns cm sep) (es : List Prog) :
    items cm (Prog.intersperse es sep) = itemss cm es := by
  unfold Prog.intersperse
  split
  · rw [items_nil, itemss_nil]
  · rw [items_concat, itemss_intersperse cm h]

theorem blank_softline : BlankIns cm (.after .softline) := by
  simp [BlankIns, Ins.progs, Ins.after, opt, optT, itemss_cons, itemss_nil, items_softline, seqR_unit]
theorem blank_maybeline : BlankIns cm (.after .maybeline) := by
  simp [BlankIns, Ins.progs, Ins.after, opt, optT, itemss_cons, itemss_nil, items_maybeline, seqR_unit]
theorem blank_nl : BlankIns cm (.after .nl) := by
  simp [BlankIns, Ins.progs, Ins.after, opt, optT, itemss_cons, itemss_nil, items_nl, seqR_unit]
theorem blank_space : BlankIns cm (.s " ") := by
  have : items cm (.txt " ".toList) = unit := items_space cm
  simp only [BlankIns, Ins.progs, Ins.s, opt, optT, List.nil_append, List.append_nil, itemss_one, this]
theorem blank_empty_nl : BlankIns cm (.sAfter "" .nl) := by
  have : items cm (.txt "".toList) = unit := items_blank cm (by decide)
  simp only [BlankIns, Ins.progs, Ins.sAfter, opt, optT, List.nil_append, List.cons_append,
    itemss_cons, itemss_nil, items_nl, this, seqR_unit]

theorem items_after_softline (es : List Prog) : items cm (Prog.intersperse es (.after .softline)) = itemss cm es :=
  items_intersperse cm (blank_softline cm) es
theorem items_after_maybeline (es : List Prog) : items cm (Prog.intersperse es (.after .maybeline)) = itemss cm es :=
  items_intersperse cm (blank_maybeline cm) es
theorem items_after_nl (es : List Prog) : items cm (Prog.intersperse es (.after .nl)) = itemss cm es :=
  items_intersperse cm (blank_nl cm) es
theorem items_sep_space (es : List Prog) : items cm (Prog.intersperse es (.s " ")) = itemss cm es :=
  items_intersperse cm (blank_space cm) es

/-- A separator, an opening and a closing which print nothing but the two brackets. -/
theorem items_surround {es : List Prog} {sep : Ins} (o c : String) {po : Option Prog} {sc : Option Prog}
    (hs : BlankIns cm sep) (hpo : itemss cm (opt po) = unit) (hsc : itemss cm (opt sc) = unit) :
    items cm (Prog.surround es sep ⟨none, some o.toList, po⟩ ⟨sc, some c.toList, none⟩) =
      seqR (items cm (t o)) (seqR (itemss cm es) (items cm (t c))) := by
  unfold Prog.surround
  split
  · simp only [items_concat, itemss_cons, itemss_nil, seqR_unit, seqR_unit_right]; rfl
  · have h1 : itemss cm ((opt po).map .indent) = unit := by
      cases po with
      | none => exact itemss_nil cm
      | some p => simpa [opt, itemss_cons, items_indent] using hpo
    simp only [items_concat, itemss_append, h1, hsc, optT, itemss_cons, itemss_nil, seqR_unit, seqR_unit_right,
      items_indent, items_intersperse cm hs, itemss_opt_none, seqR_assoc]
    rfl

theorem items_paren {es : List Prog} {sep : Ins} (o c : String) {w w' : Prog}
    (hs : BlankIns cm sep) (hw : items cm w = unit) (hw' : items cm w' = unit) :
    items cm (Prog.groupSurround es sep (.sAfter o w) (.before w' c)) =
      seqR (items cm (t o)) (seqR (itemss cm es) (items cm (t c))) := by
  rw [Prog.groupSurround, items_group]
  exact items_surround cm o c hs (by simpa [itemss_opt_some] using hw) (by simpa [itemss_opt_some] using hw')

theorem items_parenList (es : List Prog) : items cm (New.parenList es) =
    seqR (items cm (t "(")) (seqR (itemss cm es) (items cm (t ")"))) :=
  items_paren cm "(" ")" (blank_softline cm) (items_maybeline cm) (items_maybeline cm)
theorem items_soft_soft (es : List Prog) (o c : String) :
    items cm (Prog.groupSurround es (.after .softline) (.sAfter o .softline) (.before .softline c)) =
    seqR (items cm (t o)) (seqR (itemss cm es) (items cm (t c))) :=
  items_paren cm o c (blank_softline cm) (items_softline cm) (items_softline cm)
theorem items_soft_maybe (es : List Prog) (o c : String) :
    items cm (Prog.groupSurround es (.after .softline) (.sAfter o .maybeline) (.before .maybeline c)) =
    seqR (items cm (t o)) (seqR (itemss cm es) (items cm (t c))) :=
  items_paren cm o c (blank_softline cm) (items_maybeline cm) (items_maybeline cm)
theorem items_maybe_maybe (es : List Prog) (o c : String) :
    items cm (Prog.groupSurround es (.after .maybeline) (.sAfter o .maybeline) (.before .maybeline c)) =
    seqR (items cm (t o)) (seqR (itemss cm es) (items cm (t c))) :=
  items_paren cm o c (blank_maybeline cm) (items_maybeline cm) (items_maybeline cm)
theorem items_nl_nl (es : List Prog) (o c : String) :
    items cm (Prog.groupSurround es (.after .nl) (.sAfter o .nl) (.before .nl c)) =
    seqR (items cm (t o)) (seqR (itemss cm es) (items cm (t c))) :=
  items_paren cm o c (blank_nl cm) (items_nl cm) (items_nl cm)
theorem items_empty_nl (es : List Prog) (o c : String) :
    items cm (Prog.surround es (.sAfter "" .nl) (.sAfter o .nl) (.before .nl c)) =
    seqR (items cm (t o)) (seqR (itemss cm es) (items cm (t c))) :=
  items_surround cm o c (blank_empty_nl cm) (itemss_opt_some cm _ |>.trans (items_nl cm)) (itemss_opt_some cm _ |>.trans (items_nl cm))
theorem items_soft_plain (es : List Prog) (o c : String) :
    items cm (Prog.groupSurround es (.after .softline) (.sAfter o .maybeline) (.s c)) =
    seqR (items cm (t o)) (seqR (itemss cm es) (items cm (t c))) := by
  rw [Prog.groupSurround, items_group]
  exact items_surround cm o c (blank_softline cm) (by simp [itemss_opt_some, items_maybeline]) (itemss_opt_none cm)
theorem items_space_plain (es : List Prog) (o c : String) :
    items cm (Prog.surround es (.s " ") (.s o) (.s c)) =
    seqR (items cm (t o)) (seqR (itemss cm es) (items cm (t c))) :=
  items_surround cm o c (blank_space cm) (itemss_opt_none cm) (itemss_opt_none cm)

/-- The result with only a line break. -/
def sepR (b : Bool) : Res2 := .ok ([.inr b], [])

theorem items_sep (b : Bool) : items cm (.sep b) = sepR b := by rw [items]; rfl

/-- The members with the line breaks between them. -/
def bodyR : List (Bool × Prog) → Res2
  | [] => unit
  | [(_, m)] => items cm m
  | (tr, m) :: ms => seqR (items cm m) (seqR (sepR tr) (bodyR ms))

theorem itemss_bodyParts : ∀ ms : List (Bool × Prog), itemss cm (bodyParts ms) = bodyR cm ms
  | [] => rfl
  | [(_, m)] => by rw [bodyParts, itemss_one, bodyR]
  | (tr, m) :: m' :: ms => by
    rw [bodyParts, bodyR]
    · rw [itemss_cons, itemss_cons, itemss_bodyParts (m' :: ms), items_sep]
    · simp
    · simp

theorem items_intersperseBody (ms : List (Bool × Prog)) :
    items cm (intersperseBody ms) = bodyR cm ms := by
  unfold intersperseBody
  split
  · rw [items_nil]; rfl
  · rw [items_concat, itemss_bodyParts]

theorem items_surroundBody (ms : List (Bool × Prog)) : items cm (surroundBody ms) =
    seqR (items cm (t "{")) (seqR (bodyR cm ms) (items cm (t "}"))) := by
  unfold surroundBody
  split
  · simp only [items_concat, itemss_cons, itemss_nil, items_nl, seqR_unit, seqR_unit_right, bodyR]
  · simp only [items_concat, itemss_cons, itemss_nil, items_nl, items_indent, seqR_unit, seqR_unit_right,
      items_intersperseBody]

end

/-- Normal form of the content of programs. -/
macro "flat" : tactic => `(tactic| simp only [itemss_nil, itemss_cons, itemss_append, items_concat, items_group,
  items_indent, items_dedent, items_nl, items_softline, items_maybeline, items_forceBreak,
  items_space, items_nil, itemss_ite, items_ite, ite_self, items_groupConcat, items_groupIndent,
  items_groupIndentConcat, items_after_softline, items_after_maybeline, items_after_nl, items_sep_space,
  items_parenList, items_soft_soft, items_soft_maybe, items_maybe_maybe, items_nl_nl, items_empty_nl,
  items_soft_plain, items_space_plain, items_intersperseBody, items_surroundBody, itemss_opt_none, itemss_opt_some,
  seqR_unit, seqR_assoc])

end Afmt.Gram
