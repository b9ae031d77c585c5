import Verif.Text

/-!
# The document type and the pretty printer (src/doc.rs)
-/

namespace Afmt

/-- `Doc` (src/doc.rs 8-22).  `Text` carries its precomputed width; `Indent`/`Dedent` carry the relative amount.
References become plain sub-terms (sharing in the arena has no observable effect). -/
inductive Doc where
  | newline
  | newlineWithNoIndent
  | forceBreak
  | text (s : Str) (width : Nat)
  | softline
  | maybeline
  | flat (d : Doc)
  | indent (n : Nat) (d : Doc)
  | dedent (n : Nat) (d : Doc)
  | concat (ds : List Doc)
  | choice (x y : Doc)
  deriving Repr, Inhabited

/-- `Chunk` (src/doc.rs 44-50). -/
structure Chunk where
  doc : Doc
  indent : Nat
  flat : Bool

/-- Printer state: the output buffer `result`, the column `self.col`, and the `NewlineBuffer` (src/doc.rs 278-308).
The pair (`has_pending_newline`, `indent_level`) is modelled by an `Option`: `clear` resets both fields and
`get_indent` is only read when a newline is pending. -/
structure PSt where
  out : Str
  col : Nat
  pend : Option Nat

/-- "if newline_buffer.is_pending() { insert_newline_with_indent; clear }" (src/doc.rs 135-138, 157-160, 179-182 and
`insert_newline_with_indent` 187-193). -/
def PSt.flush (st : PSt) : PSt :=
  match st.pend with
  | none => st
  | some i => { out := st.out ++ '\n' :: spaces i, col := i, pend := none }

/-- Rust `result.ends_with(' ')`. -/
def endsWithSpace (s : Str) : Bool := s.getLast? == some ' '

/-- `Text` arm of `print` after the flush (src/doc.rs 140-146). -/
def PSt.putText (st : PSt) (s : Str) (width : Nat) : PSt :=
  if s = [' '] ∧ endsWithSpace st.out = true then st
  else { st with out := st.out ++ s, col := st.col + width }

/-- `Softline` in flat mode (src/doc.rs 117-119): pushes a space, without looking at the newline buffer. -/
def PSt.putSpace (st : PSt) : PSt := { st with out := st.out ++ [' '], col := st.col + 1 }

/-- `NewlineWithNoIndent` arm (src/doc.rs 109-115). -/
def PSt.bareNewline (st : PSt) : PSt := { out := st.out ++ ['\n'], col := 0, pend := none }

/-- `fits` (src/doc.rs 204-275): the look-ahead loop.  `stack` is the local stack (head = top), `rest` the printer's
remaining chunks (head = top).  The Rust `loop` becomes recursion on fuel; out of fuel answers `none`, which
`fits_total` shows never happens with the fuel used by `fits`. -/
def fitsLoop : Nat → Nat → List Chunk → List Chunk → Bool → Option Bool
  | 0, _, _, _, _ => none
  | fuel + 1, rem, stack, rest, wg =>
    let go (c : Chunk) (stack rest : List Chunk) (wg : Bool) : Option Bool :=
      match c.doc with
      | .newline => some true
      | .newlineWithNoIndent => some true
      | .forceBreak => if wg then some false else fitsLoop fuel rem stack rest wg
      | .softline =>
        if c.flat then
          if 1 ≤ rem then fitsLoop fuel (rem - 1) stack rest wg else some false
        else some true
      | .maybeline => if !c.flat then some true else fitsLoop fuel rem stack rest wg
      | .text _ width => if width ≤ rem then fitsLoop fuel (rem - width) stack rest wg else some false
      | .flat x => fitsLoop fuel rem ({ c with doc := x, flat := true } :: stack) rest wg
      | .indent i x => fitsLoop fuel rem ({ c with doc := x, indent := c.indent + i } :: stack) rest wg
      | .dedent i x => fitsLoop fuel rem ({ c with doc := x, indent := c.indent - i } :: stack) rest wg
      | .concat ds => fitsLoop fuel rem (ds.map (fun d => { c with doc := d }) ++ stack) rest wg
      | .choice x y =>
        if c.flat then fitsLoop fuel rem ({ c with doc := x } :: stack) rest wg
        else fitsLoop fuel rem ({ c with doc := y } :: stack) rest wg
    match stack with
    | c :: stack' => go c stack' rest wg
    | [] =>
      match rest with
      | c :: rest' => go c [] rest' false
      | [] => some true

mutual
/-- Number of loop iterations a document can cause; used only as fuel bound. -/
def Doc.cost : Doc → Nat
  | .flat d => 1 + d.cost
  | .indent _ d => 1 + d.cost
  | .dedent _ d => 1 + d.cost
  | .concat ds => 1 + Doc.costs ds
  | .choice x y => 1 + max x.cost y.cost
  | _ => 1
def Doc.costs : List Doc → Nat
  | [] => 0
  | d :: ds => d.cost + Doc.costs ds
end

/-- Fuel bound for a list of chunks. -/
def chunksCost : List Chunk → Nat
  | [] => 0
  | c :: cs => c.doc.cost + chunksCost cs

/-- `PrettyPrinter::fits` with the printer's `max_width` `w`, `col` and remaining chunks `rest`. -/
def fits (w : Nat) (col : Nat) (c : Chunk) (rest : List Chunk) : Option Bool :=
  fitsLoop (chunksCost (c :: rest) + 1) (w - col) [c] rest true

/-- One iteration of the `while let Some(chunk) = self.chunks.pop()` loop of `print` (src/doc.rs 104-175): chunk `c` was
popped, `rest` remains.  Answers the new stack and state; `none` only if `fits` ran out of fuel (it does not,
`fits_eq`). -/
def printStep (w : Nat) (c : Chunk) (rest : List Chunk) (st : PSt) : Option (List Chunk × PSt) :=
  match c.doc with
  | .newline => some (rest, { st with pend := some c.indent })
  | .newlineWithNoIndent => some (rest, st.bareNewline)
  | .softline =>
    if c.flat then some (rest, st.putSpace) else some (rest, { st with pend := some c.indent })
  | .maybeline =>
    if !c.flat then some (rest, { st with pend := some c.indent }) else some (rest, st)
  | .forceBreak => some (rest, st)
  | .text s width => some (rest, st.flush.putText s width)
  | .flat x => some ({ c with doc := x, flat := true } :: rest, st)
  | .indent i x => some ({ c with doc := x, indent := c.indent + i } :: rest, st)
  | .dedent i x => some ({ c with doc := x, indent := c.indent - i } :: rest, st)
  | .concat ds => some (ds.map (fun d => { c with doc := d }) ++ rest, st)
  | .choice x y =>
    let st' := st.flush
    if c.flat then some ({ c with doc := x } :: rest, st')
    else
      match fits w st'.col { c with doc := x } rest with
      | none => none
      | some true => some ({ c with doc := x } :: rest, st')
      | some false => some ({ c with doc := y } :: rest, st')

/-- The loop of `print` (src/doc.rs 103-176), recursion on fuel. -/
def printLoop (w : Nat) : Nat → List Chunk → PSt → Option PSt
  | _, [], st => some st
  | 0, _ :: _, _ => none
  | fuel + 1, c :: rest, st =>
    match printStep w c rest st with
    | none => none
    | some (cs, st') => printLoop w fuel cs st'

/-- Initial printer state (src/doc.rs 83-95, 98-101). -/
def PSt.init : PSt := { out := [], col := 0, pend := none }

/-- `pretty_print` (src/doc.rs 3-6, 97-185), with the final flush (178-182).  `none` would mean that the loops need
more iterations than the given fuel; `prettyPrint_eq` proves that this never happens. -/
def prettyPrint (w : Nat) (d : Doc) : Option Str :=
  match printLoop w d.cost [{ doc := d, indent := 0, flat := false }] PSt.init with
  | none => none
  | some st => some st.flush.out

end Afmt
