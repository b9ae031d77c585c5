import Verif.Words.Tree
import Verif.Words.Segs
import Verif.PropsTokens

/-!
# C54: words are neither joined nor split

C43 says that the visible characters of the output are those of the tree.  That alone would allow `returnx;` for
`return x;`.  Here the output has the same words as the leaves of the tree.

The specification is independent of the model: `wordsOf` cuts a text into words (maximal runs of letters, digits, `_` and
`$`) and single other characters, and `leaves` are the leaves of a tree that are no comments.
-/

namespace Afmt.Gram
open Afmt Afmt.Words

/-! ### Specification -/

/-- A character before words: joined to the first word, or by itself. -/
def attach (c : Char) (join : Bool) : List Str → List Str
  | [] => [[c]]
  | w :: ws => if join then (c :: w) :: ws else [c] :: w :: ws

/-- The words of a text: maximal runs of letters, digits, `_` and `$`; every other visible character by itself. -/
def wordsOf : Str → List Str
  | [] => []
  | c :: s => if isBlank c then wordsOf s else attach c (wordChar c && headWord s) (wordsOf s)

mutual
/-- The texts of the leaves that are no comments. -/
def leaves : Node → List Str
  | .mk _ _ _ extra _ _ _ _ _ _ text children =>
    if extra then []
    else match children with
      | [] => [text]
      | c :: cs => leaves c ++ leavess cs
/-- `leaves` of siblings. -/
def leavess : List Node → List Str
  | [] => []
  | c :: cs => leaves c ++ leavess cs
end

/-- The text of segments with a blank for every comment. -/
def uncommented (ss : List Seg) : Str := ss.flatMap fun
  | .blank s => s
  | .code s => s
  | .comment _ _ => [' ']

example : wordsOf "return x1+ foo( $a );".toList = ["return".toList, "x1".toList, ['+'], "foo".toList, ['('], "$a".toList,
    [')'], [';']] := by decide
example : wordsOf "returnx;".toList ≠ wordsOf "return x;".toList := by decide

/-! ### Words and letters -/

/-- The first letter continues a word. -/
def headFlag : List Letter → Bool
  | [] => false
  | y :: _ => y.2

/-- Words from letters. -/
def groupL : List Letter → List Str
  | [] => []
  | x :: xs => attach x.1 (headFlag xs) (groupL xs)

theorem letters_false_head (s : Str) : headFlag (letters false s) = false := by
  induction s with
  | nil => rfl
  | cons c s ih =>
    rw [letters]
    split
    · exact ih
    · rfl

theorem headFlag_letters (w : Bool) (s : Str) : headFlag (letters w s) = (w && headWord s) := by
  cases s with
  | nil => cases w <;> rfl
  | cons c s =>
    rw [letters, headWord]
    cases hb : isBlank c with
    | true => simp [letters_false_head]
    | false => simp [headFlag]

theorem groupL_letters (s : Str) : ∀ w, groupL (letters w s) = wordsOf s := by
  induction s with
  | nil => intro w; rfl
  | cons c s ih =>
    intro w
    rw [letters, wordsOf]
    split
    · exact ih false
    · rw [groupL, ih, headFlag_letters]

/-- Letters that begin a word. -/
def Fresh (k : List Letter) : Prop := headFlag k = false

theorem fresh_letters (s : Str) : Fresh (letters false s) := letters_false_head s

theorem groupL_append (a : List Letter) {b : List Letter} (hb : Fresh b) : groupL (a ++ b) = groupL a ++ groupL b := by
  induction a with
  | nil => rfl
  | cons x a ih =>
    rw [List.cons_append, groupL, ih, groupL]
    cases a with
    | nil =>
      unfold Fresh at hb
      rw [List.nil_append, hb]
      cases groupL b <;> rfl
    | cons z a =>
      rw [List.cons_append, headFlag, headFlag]
      cases h : groupL (z :: a) with
      | nil =>
        rw [groupL] at h
        unfold attach at h
        split at h
        · cases h
        · split at h <;> cases h
      | cons w ws => rw [List.cons_append, attach, attach]; split <;> rfl

theorem groupL_fold (k : List Letter) : groupL (foldL k) = (groupL k).map fold := by
  induction k with
  | nil => rfl
  | cons x k ih =>
    have e : foldL (x :: k) = (x.1.toLower, x.2) :: foldL k := rfl
    have e' : headFlag (foldL k) = headFlag k := by cases k <;> rfl
    rw [e, groupL, ih, e', groupL]
    cases groupL k with
    | nil => rfl
    | cons w ws => rw [List.map_cons, attach, attach]; split <;> rfl

theorem SameL.fold : ∀ {s : List Letter} {k : List (Bool × Letter)}, SameL s k → foldL s = foldL (k.map (·.2))
  | [], [], _ => rfl
  | c :: s, (b, d) :: k, h => by
    rw [SameL] at h
    have := SameL.fold h.2
    simp only [foldL, List.map_cons] at this ⊢
    rw [this]
    rcases h.1 with h | h
    · rw [h]
    · rw [h.2.1, h.2.2]
  | [], _ :: _, h => h.elim
  | _ :: _, [], h => h.elim

theorem fresh_append {a b : List Letter} (ha : Fresh a) (hb : Fresh b) : Fresh (a ++ b) := by
  cases a with
  | nil => exact hb
  | cons x a => exact ha

mutual
theorem lex_words : ∀ n : Node, Fresh ((lex n).map (·.2)) ∧ groupL ((lex n).map (·.2)) = (leaves n).flatMap wordsOf
  | .mk id kind named extra err field sr er sb eb text children => by
    cases extra with
    | true => cases children <;> simp only [lex, leaves, if_true] <;> exact ⟨rfl, rfl⟩
    | false =>
      cases children with
      | nil =>
        have : ((letters false text).map (fun c => (!named || foldKinds.contains kind, c))).map (·.2) = letters false text := by
          simp [Function.comp_def]
        simp only [lex, leaves, Bool.false_eq_true, if_false, this]
        exact ⟨fresh_letters _, by rw [groupL_letters]; simp⟩
      | cons c cs =>
        have h1 := lex_words c
        have h2 := lexs_words cs
        simp only [lex, leaves, Bool.false_eq_true, if_false, List.map_append, List.flatMap_append]
        exact ⟨fresh_append h1.1 h2.1, by rw [groupL_append _ h2.1, h1.2, h2.2]⟩
theorem lexs_words : ∀ ns : List Node, Fresh ((lexs ns).map (·.2)) ∧ groupL ((lexs ns).map (·.2)) = (leavess ns).flatMap wordsOf
  | [] => ⟨rfl, rfl⟩
  | c :: cs => by
    have h1 := lex_words c
    have h2 := lexs_words cs
    simp only [lexs, leavess, List.map_append, List.flatMap_append]
    exact ⟨fresh_append h1.1 h2.1, by rw [groupL_append _ h2.1, h1.2, h2.2]⟩
end

theorem letters_uncommented (ss : List Seg) (hb : ∀ s, Seg.blank s ∈ ss → ink s = []) : ∀ w,
    letters w (uncommented ss) = segLetters w ss := by
  induction ss with
  | nil => intro w; rfl
  | cons s ss ih =>
    intro w
    have ih := ih (fun s hs => hb s (List.mem_cons_of_mem _ hs))
    have e : uncommented (s :: ss) = uncommented [s] ++ uncommented ss := by simp [uncommented]
    rw [e, letters_append, ih]
    cases s with
    | blank s =>
      have : uncommented [.blank s] = s := by simp [uncommented]
      rw [this, letters_nil (hb s List.mem_cons_self)]
      rfl
    | code s =>
      have : uncommented [.code s] = s := by simp [uncommented]
      rw [this]
      rfl
    | comment c i => rfl

theorem letsOf_inks : ∀ is : List SItem, letsOf (inks is) = itemLetters (plainItems is)
  | [] => rfl
  | i :: is => by
    have h1 : inks (i :: is) = inkItem i ++ inks is := rfl
    rw [h1, letsOf_append, letsOf_inks is]
    rcases i with (s | c) | b
    · simp [inkItem, plainItems, itemLetters]
    · simp [inkItem, plainItems, itemLetters, letsOf]
    · simp [inkItem, plainItems, letsOf]

/-- The words of a successful run on a conforming tree. -/
theorem run_words {checks : Bool} {depth : Nat} {cfg : Config} {root : Node} {out : Str} (hp : Parsed root)
    (hc : conforms root = true) (h : formatTree checks depth cfg root = .ok out) :
    ∃ ss, out = renderSegs ss ∧ SegsOk ss ∧ SameL (segLetters false ss) (lex root) ∧
      (commentsOf (itemsOf ss)).Perm (root.extras.map Occ.comment) := by
  obtain ⟨cm, p, is, log, d, hcm, hn, hi, hb, _, ho, h1, h2⟩ := run_items hp hc h
  have hx := root_run (wordTree hc) hn
  obtain ⟨ss, e1, e2, e3, e4⟩ := layout_words cfg.maxWidth cfg.indentSize cm (commentMap_tidy hcm) hi hb hx
  refine ⟨ss, by rw [ho, e1], e3, ?_, by rw [e2]; exact h2⟩
  have h1 := h1.lets
  rw [lets_cont, letsOf_inks] at h1
  rw [e4]
  exact h1

/-! ### C54

The full statement quantifies over all trees of the Apex grammar.  It is false: `C54_object_super_joined` below.  The
productions in Gram/Grammar.lean leave such calls out, so the theorems are called `_partial`. -/

/-- **C54** (with comments): the output of a tree that follows the grammar consists of blanks, pieces of code and the
comments of the tree; with a blank for every comment it has exactly the words of the leaves of the tree, in order, up to
letter case. -/
theorem C54_words_kept_partial (checks : Bool) (fuel : Nat) (cfg : Config) (root : Node) (out : Str) (hp : Parsed root)
    (hc : conforms root = true) (h : formatTree checks fuel cfg root = .ok out) :
    ∃ ss, out = renderSegs ss ∧ (∀ b, Seg.blank b ∈ ss → ink b = []) ∧
      (commentsOf (itemsOf ss)).Perm (root.extras.map Occ.comment) ∧
      (wordsOf (uncommented ss)).map fold = ((leaves root).flatMap wordsOf).map fold := by
  obtain ⟨ss, e1, e2, e3, e4⟩ := run_words hp hc h
  refine ⟨ss, e1, e2.blank, e4, ?_⟩
  rw [← groupL_letters _ false, letters_uncommented ss e2.blank, ← groupL_fold, e3.fold, groupL_fold, (lex_words root).2]

theorem uncommented_eq {ss : List Seg} (h : commentsOf (itemsOf ss) = []) : uncommented ss = renderSegs ss := by
  induction ss with
  | nil => rfl
  | cons s ss ih =>
    have e : uncommented (s :: ss) = uncommented [s] ++ uncommented ss := by simp [uncommented]
    rw [e, renderSegs_cons]
    cases s with
    | blank s => rw [ih h]; simp [uncommented, Seg.render]
    | code s => rw [ih (by simpa [itemsOf, Seg.item, commentsOf] using h)]; simp [uncommented, Seg.render]
    | comment c i => simp [itemsOf, Seg.item, commentsOf] at h

/-- **C54**: for a tree without comments that follows the grammar, the output has exactly the words of the leaves of the
tree, in order: no two words are joined and none is split; only letter case may differ. -/
theorem C54_words_partial (checks : Bool) (fuel : Nat) (cfg : Config) (root : Node) (out : Str) (hp : Parsed root)
    (hc : conforms root = true) (hx : root.extras = []) (h : formatTree checks fuel cfg root = .ok out) :
    (wordsOf out).map fold = ((leaves root).flatMap wordsOf).map fold := by
  obtain ⟨ss, e1, _, e3, e4⟩ := C54_words_kept_partial checks fuel cfg root out hp hc h
  rw [hx] at e3
  rw [e1, ← uncommented_eq (by simpa using e3)]
  exact e4

/-- **C54** (letter case): the words whose letter case matters are kept as they are. -/
theorem C54_letters_partial (checks : Bool) (fuel : Nat) (cfg : Config) (root : Node) (out : Str) (hp : Parsed root)
    (hc : conforms root = true) (hx : root.extras = []) (h : formatTree checks fuel cfg root = .ok out) :
    SameL (letters false out) (lex root) := by
  obtain ⟨ss, e1, e2, e3, e4⟩ := run_words hp hc h
  rw [hx] at e4
  rw [e1, ← uncommented_eq (by simpa using e4), letters_uncommented ss e2.blank]
  exact e3

/-- **C54** (against the source text): if the leaves of the tree have the words of the source, then so has the output, up
to letter case. -/
theorem C54_source_words_partial (checks : Bool) (fuel : Nat) (cfg : Config) (root : Node) (src out : Str) (hp : Parsed root)
    (hc : conforms root = true) (hx : root.extras = []) (hs : (leaves root).flatMap wordsOf = wordsOf src)
    (h : formatTree checks fuel cfg root = .ok out) : (wordsOf out).map fold = (wordsOf src).map fold := by
  rw [C54_words_partial checks fuel cfg root out hp hc hx h, hs]

example : (leaves (exBig [] [])).flatMap wordsOf =
    wordsOf ("PUBLIC class A { Integer x = y + foo(1, 'a b'); Object m() { if (True) return [select Id FROM B WHERE " ++
      "NOT X = 7]; } }").toList := by decide +kernel
/-- The hypotheses hold for the examples of C43, with and without comments. -/
example (out : Str) (h : formatTree true 60 ⟨80, 2⟩ exBigC = .ok out) := C54_words_kept_partial _ _ _ _ _ exBigC_parsed exBigC_conforms h
example (out : Str) (h : formatTree true 60 ⟨80, 2⟩ (exBig [] []) = .ok out) :=
  C54_words_partial _ _ _ _ _ exBig_parsed exBig_conforms (by decide) h
/-- C43 does not tell these apart. -/
example : ink "returnx;".toList = ink "return x;".toList := by decide

/-- `class A { A() { o.super(x); } }` -/
def exObjectSuper : Node := (numbered 1 (exNode 0 "parser_output" 0 0 "" [
  exNode 0 "class_declaration" 0 0 "" [exTok 0 "class" 0, exField "name" (exLeaf "identifier" "A" 0),
    exField "body" (exNode 0 "class_body" 0 0 "" [exTok 0 "{" 0,
      exNode 0 "constructor_declaration" 0 0 "" [exField "name" (exLeaf "identifier" "A" 0),
        exField "parameters" (exNode 0 "formal_parameters" 0 0 "" [exTok 0 "(" 0, exTok 0 ")" 0]),
        exField "body" (exNode 0 "constructor_body" 0 0 "" [exTok 0 "{" 0,
          exNode 0 "explicit_constructor_invocation" 0 0 "" [
            exField "object" (exLeaf "identifier" "o" 0), exTok 0 "." 0,
            exField "constructor" (exLeaf "super" "super" 0),
            exField "arguments" (exNode 0 "argument_list" 0 0 "" [exTok 0 "(" 0, exLeaf "identifier" "x" 0, exTok 0 ")" 0]),
            exTok 0 ";" 0],
          exTok 0 "}" 0])],
      exTok 0 "}" 0])]])).1

/-- **C54** without the restriction is false: `ConstructInvocation` (src/data_model.rs 1875-1893) writes the object and the
word `super` next to each other. -/
theorem C54_object_super_joined :
    formatTree true 60 ⟨80, 2⟩ exObjectSuper = .ok "class A {\n  A() {\n    osuper(x);\n  }\n}\n".toList ∧
    Parsed exObjectSuper ∧ exObjectSuper.extras = [] ∧
    "osuper".toList ∈ wordsOf "class A {\n  A() {\n    osuper(x);\n  }\n}\n".toList ∧
    "osuper".toList ∉ (leaves exObjectSuper).flatMap wordsOf := by
  refine ⟨by decide +kernel, ⟨closedB_iff _ (by decide), by decide, by decide⟩, by decide, by decide, by decide⟩

end Afmt.Gram
