import Verif.Trail.Calm
import Verif.PropsTrail
import Verif.PropsPlaces

/-!
# C58: no two blanks in a row

Specification: `lastLine a` is what `a` has written on its last line.  Two blanks in a row are allowed only as part of the
indentation, that is, if everything before them on their line is blank.  `calmText` says that a text has no two blanks in a
row and does not begin with a blank.
-/

namespace Afmt.Gram
open Trail

/-- The last line of a text. -/
def lastLine (s : Str) : Str := (s.reverse.takeWhile (fun c => c != '\n')).reverse

/-- Two blanks in a row are part of the indentation of their line. -/
def blanksOnlyIndent (s : Str) : Prop := ∀ a b, s = a ++ ' ' :: ' ' :: b → (lastLine a).all (fun c => c == ' ') = true

/-- A text that can be printed, does not begin with a blank and has no two blanks in a row. -/
def calmText (s : Str) : Bool := tightText s && !(s.head? == some ' ') && !pair s

/-- Only blanks on the line so far. -/
def start (b : Bool) : Str → Bool
  | [] => b
  | c :: s => if c == '\n' then start true s else if c == ' ' then start b s else start false s

theorem start_snoc : ∀ (b : Bool) (s : Str) (c : Char), start b (s ++ [c]) =
    if c == '\n' then true else if c == ' ' then start b s else false
  | b, [], c => rfl
  | b, d :: s, c => by
    show start b (d :: (s ++ [c])) = _
    rw [start, start]
    split
    · exact start_snoc true s c
    · split
      · exact start_snoc b s c
      · exact start_snoc false s c

theorem start_reverse : ∀ r : Str, start true r.reverse = (r.takeWhile (fun c => c != '\n')).all (fun c => c == ' ')
  | [] => rfl
  | c :: r => by
    rw [List.reverse_cons, start_snoc, start_reverse r, List.takeWhile_cons]
    cases hc : c == '\n' with
    | true => simp [bne, hc]
    | false =>
      simp only [bne, hc, Bool.not_false]
      cases hb : c == ' ' <;> simp [hb]

theorem start_lastLine (s : Str) : start true s = (lastLine s).all (fun c => c == ' ') := by
  have := start_reverse s.reverse
  rw [List.reverse_reverse] at this
  rw [this, lastLine, List.all_reverse]

theorem calm_iff : ∀ (b : Bool) (s : Str), calm b s = true ↔ ∀ x y, s = x ++ ' ' :: ' ' :: y → start b x = true
  | b, [] => ⟨fun _ x y h => (by cases x <;> cases h), fun _ => rfl⟩
  | b, c :: s => by
    rw [calm]
    constructor
    · intro h x y e
      cases x with
      | nil =>
        cases e
        simp only [start]
        rw [if_neg (by decide), if_pos (by decide), Bool.and_eq_true] at h
        simpa using h.1
      | cons d x =>
        injection e with e1 e2
        subst e1
        rw [start]
        split
        · rename_i hc; rw [if_pos hc] at h; exact (calm_iff true s).1 h x y e2
        · rename_i hc
          rw [if_neg hc] at h
          split
          · rename_i hc'
            rw [if_pos hc', Bool.and_eq_true] at h
            exact (calm_iff b s).1 h.2 x y e2
          · rename_i hc'
            rw [if_neg hc'] at h; exact (calm_iff false s).1 h x y e2
    · intro h
      have hk : ∀ x y, s = x ++ ' ' :: ' ' :: y → start b (c :: x) = true := fun x y e => h (c :: x) y (by rw [e]; rfl)
      split
      · rename_i hc
        exact (calm_iff true s).2 (fun x y e => by have := hk x y e; rw [start, if_pos hc] at this; exact this)
      · rename_i hc
        split
        · rename_i hc'
          rw [Bool.and_eq_true]
          refine ⟨?_, (calm_iff b s).2 (fun x y e => by have := hk x y e; rw [start, if_neg hc, if_pos hc'] at this; exact this)⟩
          cases hh : s.head? == some ' ' with
          | false => simp
          | true =>
            cases s with
            | nil => cases hh
            | cons d s =>
              have h1 : d = ' ' := by simpa using hh
              have h2 : c = ' ' := by simpa using hc'
              have := h [] s (by rw [h1, h2]; rfl)
              rw [start] at this
              rw [this]; rfl
        · rename_i hc'
          exact (calm_iff false s).2 (fun x y e => by have := hk x y e; rw [start, if_neg hc, if_neg hc'] at this; exact this)

theorem calm_spec (s : Str) : calm true s = true ↔ blanksOnlyIndent s := by
  rw [calm_iff]
  exact forall_congr' fun x => forall_congr' fun y => imp_congr Iff.rfl (by rw [start_lastLine])

/-- **C58** (trees without comments): two blanks in a row occur only in the indentation of a line, whatever the line
width, provided that the printed words of the tree have no two blanks in a row themselves.  Missing: trees with comments, for
which the claim is false, see `C58_comment_doubles_blank`; `for` statements without update; and trees outside the grammar. -/
theorem C58_blanks_only_indent_partial (checks : Bool) (depth : Nat) (cfg : Config) (root : Node) (out : Str)
    (hcl : root.Closed) (hi : root.ids.Nodup) (hf : root.field = none) (hc : conforms root = true) (hx : plain root = true)
    (ht : crispsBy calmText "parser_output" none root.children = true) (hu : updates root = true)
    (h : formatTree checks depth cfg root = .ok out) : blanksOnlyIndent out := by
  have e : @admitted Gate.strict = calmText := by
    funext s
    show (tightText s && (!pair s && (!true || !lead s))) = (tightText s && !(s.head? == some ' ') && !pair s)
    unfold lead
    cases tightText s <;> cases pair s <;> cases (s.head? == some ' ') <;> rfl
  obtain ⟨k, cm, p, d, l, h1, h2, h3, rfl⟩ :=
    @format_run Gate.strict checks depth cfg root out hcl hi hf hc hx (by rw [e]; exact ht) hu h
  exact (calm_spec _).1 (layout_calm h1 h2 _ h3)

/-- The hypotheses hold for the example of C43. -/
example (w : Nat) (out : Str) (h : formatTree true 60 ⟨w, 2⟩ (exBig [] []) = .ok out) : blanksOnlyIndent out :=
  C58_blanks_only_indent_partial _ _ _ _ _ exBig_parsed.closed (by decide +kernel) rfl exBig_conforms (by decide +kernel)
    (by decide +kernel) (by decide +kernel) h

/-- Blanks after a visible character, at the beginning of a line, and between the two. -/
example : ¬ blanksOnlyIndent "a  b".toList ∧ blanksOnlyIndent "  a\n    b c\n".toList ∧ ¬ blanksOnlyIndent "\n  a b   c".toList := by
  refine ⟨?_, ?_, ?_⟩ <;> rw [← calm_spec] <;> decide

/-- **C58 is false for trees with comments**: `a + /* c */ b` becomes `a /* c */  + b`, since the blank behind the comment
(`handle_post_comments`, src/utility.rs 446-474) is followed by the blank in front of the operator. -/
theorem C58_comment_doubles_blank : ∃ root out, Parsed root ∧ conforms root = true ∧ updates root = true ∧
    crispsBy calmText "parser_output" none root.children = true ∧
    formatTree true 60 ⟨80, 2⟩ root = .ok out ∧ ¬ blanksOnlyIndent out := by
  refine ⟨exPlus [exComment 0 false 0 "/* c */"], "class A {\n  Object m() {\n    return a /* c */  + b;\n  }\n}\n".toList,
    ⟨closedB_iff _ (by decide), by decide, by decide⟩, by decide +kernel, by decide +kernel, by decide +kernel, by decide +kernel, ?_⟩
  rw [← calm_spec]
  decide +kernel

end Afmt.Gram
