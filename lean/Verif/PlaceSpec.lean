import Verif.Gram.Grammar
import Verif.CollectSpec

/-!
# The places of comments among the names and literals of a program

`stream` lists the visible characters of the code and the comments in the order of the source.
-/

namespace Afmt.Gram

/-- The leaf is a name, a literal or a named operator, and its letter case matters: no bare token, keyword, modifier, `true`,
`null` and so on. -/
def nameKind (named : Bool) (kind : String) : Bool := named && !foldKinds.contains kind

mutual
/-- The visible characters of the code, each with the flag whether it belongs to a name or literal, and the ids of the
comments, in the order of the source. -/
def stream : Node → List (Sum Bool Nat)
  | .mk id kind named extra _ _ _ _ _ _ text children =>
    if extra then [.inr id]
    else match children with
      | [] => (ink text).map (fun _ => .inl (nameKind named kind))
      | c :: cs => stream c ++ kidsStream cs
/-- `stream` of siblings. -/
def kidsStream : List Node → List (Sum Bool Nat)
  | [] => []
  | c :: cs => stream c ++ kidsStream cs
end

/-- The flags of the visible characters of the code. -/
def flagsOf (s : List (Sum Bool Nat)) : List Bool := s.filterMap fun
  | .inl b => some b
  | .inr _ => none

/-- The number of characters of names and literals among characters with the given flags. -/
def nameCount (s : List Bool) : Nat := s.countP id

/-- The comment comes directly after the fields of an object in the `RETURNING` clause of a SOSL query. -/
def afterFields (o : Occ) : Bool :=
  match o.lefts.find? (·.associable) with
  | some s => s.kind == "selected_fields"
  | none => false

mutual
/-- The nodes a comment can be attached to, each with the number of visible characters of the code before it and up to its
end, counted from `n`. -/
def spans (n : Nat) : Node → List (Node × Nat × Nat)
  | .mk id kind named extra err field sr er sb eb text children =>
    (.mk id kind named extra err field sr er sb eb text children, n,
      n + (flagsOf (stream (.mk id kind named extra err field sr er sb eb text children))).length) :: kidsSpans n children
/-- `spans` of siblings. -/
def kidsSpans (n : Nat) : List Node → List (Node × Nat × Nat)
  | [] => []
  | c :: r => (if c.associable then spans n c else []) ++ kidsSpans (n + (flagsOf (stream c)).length) r
end

/-- Nodes with comments before them that are printed directly before them.  Line comments before `,` and `;` are printed after
them, comments before a `FOR` clause after `FOR`, those before the fields of an object in a `RETURNING` clause before
the `(`. -/
def keepsBefore (kind : String) : Bool := ![",", ";", "for_clause", "selected_fields"].contains kind

/-- Nodes with comments after them that are printed directly after them.  Comments after an accessor without body are printed
before its `;`, those after the fields of an object in a `RETURNING` clause after the `)`. -/
def keepsAfter (kind : String) : Bool := !["selected_fields", "accessor_declaration"].contains kind

/-- Nothing but comments is between the comment and the node it belongs to. -/
def besideOwner (o : Occ) : Bool :=
  (match o.rights.find? (fun s => !s.extra) with
    | some s => s.associable && o.owner == .pre s.id && keepsBefore s.kind
    | none => false) ||
  (match o.lefts.find? (fun s => !s.extra) with
    | some s => s.associable && o.owner == .post s.id && keepsAfter s.kind
    | none => false)

end Afmt.Gram
