/-!
# Text

Rust `String`/`&str` values are modelled as lists of characters (`Str`).  Rust strings are always valid UTF-8, i.e.
sequences of Unicode scalar values, which is exactly `List Char`.
-/

namespace Afmt

/-- A Rust `String`. -/
abbrev Str := List Char

/-- Rust `str::len`: number of UTF-8 bytes. -/
def byteLen : Str → Nat
  | [] => 0
  | c :: cs => c.utf8Size + byteLen cs

/-- Rust `char::is_whitespace` (Unicode `White_Space`), used by `str::trim*`. -/
def isWs (c : Char) : Bool :=
  let n := c.toNat
  (9 ≤ n && n ≤ 13) || n == 32 || n == 0x85 || n == 0xA0 || n == 0x1680 || (0x2000 ≤ n && n ≤ 0x200A) ||
    n == 0x2028 || n == 0x2029 || n == 0x202F || n == 0x205F || n == 0x3000

/-- Rust `str::trim_start`. -/
def trimStart (s : Str) : Str := s.dropWhile isWs

/-- Rust `str::trim_end`. -/
def trimEnd (s : Str) : Str := (s.reverse.dropWhile isWs).reverse

/-- Rust `str::trim`. -/
def trim (s : Str) : Str := trimEnd (trimStart s)

/-- Rust `str::split('\n')` collected into a vector: always at least one element. -/
def splitNl : Str → List Str
  | [] => [[]]
  | c :: cs =>
    if c = '\n' then [] :: splitNl cs
    else match splitNl cs with
      | [] => [[c]]
      | l :: ls => (c :: l) :: ls

/-- Rust `str::strip_prefix`. -/
def stripPrefix (p s : Str) : Option Str :=
  if p.isPrefixOf s then some (s.drop p.length) else none

/-- Rust `str::strip_suffix`. -/
def stripSuffix (p s : Str) : Option Str :=
  if p.isSuffixOf s then some (s.take (s.length - p.length)) else none

/-- `n` spaces. -/
def spaces (n : Nat) : Str := List.replicate n ' '

/-- Characters the pretty printer may insert on its own. -/
def isBlank (c : Char) : Bool := c == ' ' || c == '\n'

/-- The visible part of a text: everything except spaces and newlines. -/
def ink (s : Str) : Str := s.filter (fun c => !isBlank c)

/-- The text after the last newline. -/
def lastLine (s : Str) : Str := (s.reverse.takeWhile (· != '\n')).reverse

/-- The text before the first newline. -/
def firstLine (s : Str) : Str := s.takeWhile (· != '\n')

/-! ### Basic facts -/

@[simp] theorem byteLen_nil : byteLen [] = 0 := rfl
@[simp] theorem byteLen_cons (c : Char) (cs : Str) : byteLen (c :: cs) = c.utf8Size + byteLen cs := rfl

@[simp] theorem byteLen_append (a b : Str) : byteLen (a ++ b) = byteLen a + byteLen b := by
  induction a with
  | nil => simp
  | cons c cs ih => simp [ih]; omega

@[simp] theorem byteLen_spaces (n : Nat) : byteLen (spaces n) = n := by
  induction n with
  | zero => rfl
  | succ n ih =>
    have : spaces (n + 1) = ' ' :: spaces n := rfl
    rw [this, byteLen_cons, ih]
    have : (' ' : Char).utf8Size = 1 := by decide
    omega

@[simp] theorem ink_nil : ink [] = [] := rfl
@[simp] theorem ink_append (a b : Str) : ink (a ++ b) = ink a ++ ink b := by simp [ink]
@[simp] theorem ink_spaces (n : Nat) : ink (spaces n) = [] := by
  simp [ink, spaces, isBlank]
@[simp] theorem ink_nl_cons (s : Str) : ink ('\n' :: s) = ink s := by simp [ink, isBlank]
@[simp] theorem ink_space_cons (s : Str) : ink (' ' :: s) = ink s := by simp [ink, isBlank]
@[simp] theorem ink_space : ink [' '] = [] := by simp [ink, isBlank]

theorem firstLine_append_of_nl {a b : Str} (h : '\n' ∈ a) : firstLine (a ++ b) = firstLine a := by
  induction a with
  | nil => simp at h
  | cons c cs ih =>
    simp only [firstLine, List.cons_append, List.takeWhile_cons] at *
    by_cases hc : c = '\n'
    · simp [hc]
    · have : '\n' ∈ cs := by
        rcases List.mem_cons.1 h with h | h
        · exact absurd h.symm hc
        · exact h
      simp [hc, ih this]

theorem firstLine_append_of_no_nl {a b : Str} (h : '\n' ∉ a) : firstLine (a ++ b) = a ++ firstLine b := by
  induction a with
  | nil => simp
  | cons c cs ih =>
    simp only [List.mem_cons, not_or] at h
    have hc : c ≠ '\n' := fun e => h.1 e.symm
    simp only [firstLine, List.cons_append, List.takeWhile_cons] at *
    simp [hc, ih h.2]

theorem lastLine_append_of_no_nl {a b : Str} (h : '\n' ∉ b) : lastLine (a ++ b) = lastLine a ++ b := by
  have h' : '\n' ∉ b.reverse := by simpa using h
  have := firstLine_append_of_no_nl (a := b.reverse) (b := a.reverse) h'
  simp only [firstLine] at this
  simp [lastLine, this]

theorem lastLine_append_nl_cons {a b : Str} (h : '\n' ∉ b) : lastLine (a ++ '\n' :: b) = b := by
  have : a ++ '\n' :: b = (a ++ ['\n']) ++ b := by simp
  rw [this, lastLine_append_of_no_nl h]
  simp [lastLine]

theorem nl_not_mem_spaces (n : Nat) : '\n' ∉ spaces n := by
  simp [spaces]

end Afmt
