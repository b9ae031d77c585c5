import Verif.Gram.C0

/-!
# Blanks around operators and brackets: the rules

A reader of a text from left to right that remembers how the characters just read must be followed.
-/

namespace Afmt.Gap

/-- Kinds of characters. -/
inductive Cc where
  | blank | feed | quote | slash | comma | semi | opening | closing | quest | colon | dot | eq | strong | angle | sign | other
  deriving DecidableEq

/-- The kind of a character. -/
def cc (c : Char) : Cc :=
  if c = ' ' then .blank
  else if c = '\n' then .feed
  else if c = '\'' then .quote
  else if c = '\\' then .slash
  else if c = ',' then .comma
  else if c = ';' then .semi
  else if c = '(' ∨ c = '[' then .opening
  else if c = ')' ∨ c = ']' then .closing
  else if c = '?' then .quest
  else if c = ':' then .colon
  else if c = '.' then .dot
  else if c = '=' then .eq
  else if c = '*' ∨ c = '/' ∨ c = '%' ∨ c = '&' ∨ c = '|' ∨ c = '^' then .strong
  else if c = '<' ∨ c = '>' then .angle
  else if c = '+' ∨ c = '-' ∨ c = '!' ∨ c = '~' then .sign
  else .other

/-- What has been read last: a character without restrictions (`N`), a blank (`W`), a line break and perhaps the
indentation (`L`), an opening bracket (`O`), only signs and angle brackets (`P`), only `=` (`E`), another operator
(`S`), only `?` (`Q`), `:` (`D`), something inside a string literal (`I`) or a backslash there (`J`).  The flag tells
whether white space came before the operator; for `S` it always does. -/
inductive Sc where
  | N | W | L | O | P (w : Bool) | E (w : Bool) | S | Q (w : Bool) | D (w : Bool) | I | J
  deriving DecidableEq

/-- White space has been read last. -/
def Sc.white : Sc → Bool
  | .W | .L => true
  | _ => false

/-- White space may come next, if it is not a blank after an opening bracket. -/
def Sc.open_ : Sc → Bool
  | .E w | .Q w | .D w => w
  | _ => true

/-- A character after one that is not part of an operator. -/
def fresh (x : Sc) : Cc → Option Sc
  | .quote => some .I
  | .comma => if x.white then none else some .N
  | .semi => if x = .W then none else some .N
  | .opening => some .O
  | .closing => if x = .W then none else some .N
  | .quest => some (.Q x.white)
  | .colon => some (.D x.white)
  | .eq => some (.E x.white)
  | .strong => if x.white then some .S else none
  | .angle | .sign => some (.P x.white)
  | _ => some .N

/-- A visible character; `t`: a single `=` without white space on both sides is allowed. -/
def visible (t : Bool) (x : Sc) (c : Cc) : Option Sc :=
  match x with
  | .P w =>
    match c with
    | .angle | .sign => some (.P w)
    | .eq | .strong => if w then some .S else none
    | _ => fresh .N c
  | .E w =>
    match c with
    | .eq | .strong | .angle => if w then some .S else none
    | _ => if t && !w then fresh .N c else none
  | .S =>
    match c with
    | .eq | .strong | .angle | .sign => some .S
    | _ => none
  | .Q w =>
    match c with
    | .dot => some .N
    | .quest => if w then some .S else none
    | _ => none
  | .D _ => fresh .N c
  | x => fresh x c

/-- Reading a character. -/
def step (t : Bool) (x : Sc) (c : Char) : Option Sc :=
  match x with
  | .I => if cc c = .quote then some .N else if cc c = .slash then some .J else some .I
  | .J => some .I
  | x =>
    match cc c with
    | .blank => if x.open_ && x != .O then (if x = .L then some .L else some .W) else none
    | .feed => if x.open_ then some .L else none
    | k => visible t x k

/-- Reading a text. -/
def scan (t : Bool) (x : Sc) : Str → Option Sc
  | [] => some x
  | c :: s => (step t x c).bind (fun y => scan t y s)

/-- The blanks of the text are where they should be:
* an operator that consists of or contains one of `= * / % & | ^`, or that is `??` or a `?` not followed by `.`, has white
  space on both sides; if `t`, a single `=` may also have white space on neither side;
* a `:` with white space after it has white space before it;
* there is no white space before `,`, no blank before `;`, `)` and `]`, and no blank after `(` and `[`.

String literals are skipped. -/
def spaced (t : Bool) (s : Str) : Bool := (scan t .L s).isSome

theorem scan_append (t : Bool) (a b : Str) : ∀ x, scan t x (a ++ b) = (scan t x a).bind (fun y => scan t y b) := by
  induction a with
  | nil => intro x; rfl
  | cons c a ih =>
    intro x
    simp only [List.cons_append, scan]
    cases step t x c with
    | none => rfl
    | some y => exact ih y

theorem fresh_cc {c : Char} {x : Sc} (h : cc c = .other) : fresh x (cc c) = some .N := by rw [h]; rfl

/-- Allowing a tight `=` allows more. -/
theorem visible_mono {x y : Sc} {c : Cc} (h : visible false x c = some y) : visible true x c = some y := by
  cases x with
  | E w =>
    cases c <;> cases w <;> first | exact h | (simp [visible] at h)
  | _ => exact h

theorem step_mono {x y : Sc} {c : Char} (h : step false x c = some y) : step true x c = some y := by
  unfold step at *
  cases x with
  | I => exact h
  | J => exact h
  | _ =>
    dsimp only at h ⊢
    split at h <;> first | exact h | exact visible_mono h

theorem scan_mono {s : Str} : ∀ {x y : Sc}, scan false x s = some y → scan true x s = some y := by
  induction s with
  | nil => intro x y h; exact h
  | cons c s ih =>
    intro x y h
    rw [scan] at h ⊢
    cases hs : step false x c with
    | none => rw [hs] at h; cases h
    | some z =>
      rw [hs] at h
      rw [step_mono hs]
      exact ih h

/-! ### Small and capital letters -/

theorem cc_letter {c : Char} (h : (65 ≤ c.toNat ∧ c.toNat ≤ 90) ∨ (97 ≤ c.toNat ∧ c.toNat ≤ 122)) : cc c = .other := by
  have ne : ∀ d : Char, ¬ ((65 ≤ d.toNat ∧ d.toNat ≤ 90) ∨ (97 ≤ d.toNat ∧ d.toNat ≤ 122)) → (c = d) = False := by
    intro d hd
    rw [eq_iff_iff, iff_false]
    rintro rfl
    exact hd h
  unfold cc
  simp only [ne ' ' (by decide), ne '\n' (by decide), ne '\'' (by decide), ne '\\' (by decide), ne ',' (by decide), ne ';' (by decide),
    ne '(' (by decide), ne '[' (by decide), ne ')' (by decide), ne ']' (by decide), ne '?' (by decide), ne ':' (by decide),
    ne '.' (by decide), ne '=' (by decide), ne '*' (by decide), ne '/' (by decide), ne '%' (by decide), ne '&' (by decide),
    ne '|' (by decide), ne '^' (by decide), ne '<' (by decide), ne '>' (by decide), ne '+' (by decide), ne '-' (by decide),
    ne '!' (by decide), ne '~' (by decide), or_false, if_false]

theorem cc_lower (c : Char) : cc c.toLower = cc c := by
  by_cases h : 65 ≤ c.toNat ∧ c.toNat ≤ 90
  · rw [cc_letter (Or.inl h)]
    apply cc_letter
    rw [Gram.toLower_nat]
    right
    split <;> omega
  · have : c.toLower = c := by
      apply Gram.char_ext
      rw [Gram.toLower_nat]
      split
      · omega
      · rfl
    rw [this]
theorem cc_upper (c : Char) : cc c.toUpper = cc c := by rw [← cc_lower, Gram.lower_upper, cc_lower]

theorem step_cc {t : Bool} {x : Sc} {c d : Char} (h : cc c = cc d) : step t x c = step t x d := by
  unfold step
  rw [h]
theorem scan_map {t : Bool} {f : Char → Char} (hf : ∀ c, cc (f c) = cc c) (s : Str) : ∀ x, scan t x (s.map f) = scan t x s := by
  induction s with
  | nil => intro x; rfl
  | cons c s ih =>
    intro x
    simp only [List.map_cons, scan]
    rw [step_cc (hf c)]
    congr 1
    funext y
    exact ih y

end Afmt.Gap
