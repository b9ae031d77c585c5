import Verif.Format
import Verif.Skel
import Verif.Gram.Ctx

/-!
# Trees that differ in node ids and positions only (lemmas for C32 and C50)
-/

namespace Afmt
open Gram

/-- Identity, position and source text of a node. -/
structure Pos where
  id : Nat
  startRow : Nat
  endRow : Nat
  startByte : Nat
  endByte : Nat
  text : Str

mutual
/-- The tree with other ids and positions, given for each id. -/
def Node.ren (τ : Nat → Pos) : Node → Node
  | .mk id kind named extra err field _ _ _ _ _ children =>
    .mk (τ id).id kind named extra err field (τ id).startRow (τ id).endRow (τ id).startByte (τ id).endByte (τ id).text (renAll τ children)
/-- The trees with other ids and positions. -/
def renAll (τ : Nat → Pos) : List Node → List Node
  | [] => []
  | n :: ns => n.ren τ :: renAll τ ns
end

/-- The surroundings with other ids and positions. -/
def Frame.ren (τ : Nat → Pos) (f : Frame) : Frame := ⟨f.parent.ren τ, f.lefts.map (Node.ren τ), f.rights.map (Node.ren τ)⟩
/-- The location with other ids and positions. -/
def Loc.ren (τ : Nat → Pos) (l : Loc) : Loc := ⟨l.node.ren τ, l.path.map (Frame.ren τ)⟩

variable (τ : Nat → Pos)

theorem renAll_eq (ns : List Node) : renAll τ ns = ns.map (Node.ren τ) := by
  induction ns with
  | nil => rw [renAll, List.map_nil]
  | cons n ns ih => rw [renAll, ih, List.map_cons]

theorem node_id (n : Node) : (n.ren τ).id = (τ n.id).id := by cases n; rw [Node.ren]
theorem node_kind (n : Node) : (n.ren τ).kind = n.kind := by cases n; rw [Node.ren]
theorem node_named (n : Node) : (n.ren τ).named = n.named := by cases n; rw [Node.ren]
theorem node_extra (n : Node) : (n.ren τ).extra = n.extra := by cases n; rw [Node.ren]
theorem node_field (n : Node) : (n.ren τ).field = n.field := by cases n; rw [Node.ren]
theorem node_text (n : Node) : (n.ren τ).text = (τ n.id).text := by cases n; rw [Node.ren]
theorem node_err (n : Node) : (n.ren τ).err = n.err := by cases n; rw [Node.ren]
theorem node_startRow (n : Node) : (n.ren τ).startRow = (τ n.id).startRow := by cases n; rw [Node.ren]
theorem node_endRow (n : Node) : (n.ren τ).endRow = (τ n.id).endRow := by cases n; rw [Node.ren]
theorem node_startByte (n : Node) : (n.ren τ).startByte = (τ n.id).startByte := by cases n; rw [Node.ren]
theorem node_children (n : Node) : (n.ren τ).children = n.children.map (Node.ren τ) := by cases n; rw [Node.ren, renAll_eq]

theorem loc_id (l : Loc) : (l.ren τ).id = (τ l.id).id := node_id τ l.node
theorem loc_kind (l : Loc) : (l.ren τ).kind = l.kind := node_kind τ l.node
theorem loc_named (l : Loc) : (l.ren τ).named = l.named := node_named τ l.node
theorem loc_extra (l : Loc) : (l.ren τ).extra = l.extra := node_extra τ l.node
theorem loc_value (l : Loc) : (l.ren τ).value = (τ l.id).text := node_text τ l.node

theorem loc_childrenGo (p : Loc) : ∀ (lefts rest : List Node), Loc.childrenGo (p.ren τ) (lefts.map (Node.ren τ)) (rest.map (Node.ren τ)) =
    (Loc.childrenGo p lefts rest).map (Loc.ren τ)
  | _, [] => rfl
  | lefts, c :: rest => by
    rw [List.map_cons, Loc.childrenGo, Loc.childrenGo, List.map_cons, ← List.map_cons, loc_childrenGo p (c :: lefts) rest]
    rfl

theorem loc_children (l : Loc) : (l.ren τ).children = l.children.map (Loc.ren τ) := by
  have := loc_childrenGo τ l [] l.node.children
  rw [Loc.children, Loc.children, ← this]
  show Loc.childrenGo _ _ (l.node.ren τ).children = _
  rw [node_children]
  rfl

theorem loc_right (l : Loc) : (l.ren τ).rightSiblings = l.rightSiblings.map (Loc.ren τ) := by
  obtain ⟨n, path⟩ := l
  cases path with
  | nil => rfl
  | cons f fs => exact loc_childrenGo τ ⟨f.parent, fs⟩ (n :: f.lefts) f.rights

theorem loc_parent (l : Loc) : (l.ren τ).parent = l.parent.map (Loc.ren τ) := by
  obtain ⟨n, path⟩ := l
  cases path <;> rfl

theorem filter_ren {p q : Loc → Bool} (h : ∀ l, q (l.ren τ) = p l) (ls : List Loc) :
    (ls.map (Loc.ren τ)).filter q = (ls.filter p).map (Loc.ren τ) := by
  rw [List.filter_map]
  congr 1
  apply List.filter_congr
  intro x _
  exact h x

theorem find_ren {p q : Loc → Bool} (h : ∀ l, q (l.ren τ) = p l) (ls : List Loc) :
    (ls.map (Loc.ren τ)).find? q = (ls.find? p).map (Loc.ren τ) := by
  rw [List.find?_map]
  congr 1
  congr 1
  funext x
  exact h x

theorem loc_namedChildren (l : Loc) : (l.ren τ).namedChildren = l.namedChildren.map (Loc.ren τ) := by
  rw [Loc.namedChildren, loc_children, filter_ren τ (fun l => loc_named τ l)]; rfl
theorem loc_childrenVec (l : Loc) : (l.ren τ).childrenVec = l.childrenVec.map (Loc.ren τ) := by
  rw [Loc.childrenVec, loc_namedChildren, filter_ren τ (p := fun l => !l.extra) (fun l => by rw [loc_extra])]; rfl
theorem loc_tryCByK (l : Loc) (k : String) : (l.ren τ).tryCByK k = (l.tryCByK k).map (Loc.ren τ) := by
  rw [Loc.tryCByK, loc_namedChildren, find_ren τ (p := fun c => c.kind == k) (fun l => by rw [loc_kind])]; rfl
theorem loc_tryCsByK (l : Loc) (k : String) : (l.ren τ).tryCsByK k = (l.tryCsByK k).map (Loc.ren τ) := by
  rw [Loc.tryCsByK, loc_namedChildren, filter_ren τ (p := fun c => c.kind == k) (fun l => by rw [loc_kind])]; rfl
theorem loc_tryCByN (l : Loc) (f : String) : (l.ren τ).tryCByN f = (l.tryCByN f).map (Loc.ren τ) := by
  rw [Loc.tryCByN, loc_children, find_ren τ (p := fun c => c.node.field == some f) (fun l => by
    show ((l.node.ren τ).field == some f) = _
    rw [node_field])]; rfl
theorem loc_tryFirstC (l : Loc) : (l.ren τ).tryFirstC = l.tryFirstC.map (Loc.ren τ) := by
  rw [Loc.tryFirstC, loc_namedChildren, find_ren τ (p := fun l => !l.extra) (fun l => by rw [loc_extra])]; rfl
theorem loc_nextNamedSibling (l : Loc) : (l.ren τ).nextNamedSibling = l.nextNamedSibling.map (Loc.ren τ) := by
  rw [Loc.nextNamedSibling, loc_right, find_ren τ (fun l => loc_named τ l)]; rfl

theorem loc_cByK (l : Loc) (k : String) : (l.ren τ).cByK k = (l.cByK k).map (Loc.ren τ) := by
  rw [Loc.cByK, loc_tryCByK, Loc.cByK]; cases l.tryCByK k <;> rfl
theorem loc_firstC (l : Loc) : (l.ren τ).firstC = l.firstC.map (Loc.ren τ) := by
  rw [Loc.firstC, loc_tryFirstC, Loc.firstC]; cases l.tryFirstC <;> rfl
theorem loc_cByN (l : Loc) (k : String) : (l.ren τ).cByN k = (l.cByN k).map (Loc.ren τ) := by
  rw [Loc.cByN, loc_tryCByN, Loc.cByN]; cases l.tryCByN k <;> rfl
theorem loc_csByK (l : Loc) (k : String) : (l.ren τ).csByK k = (l.csByK k).map (List.map (Loc.ren τ)) := by
  rw [Loc.csByK, loc_tryCsByK, Loc.csByK]; cases l.tryCsByK k <;> rfl
theorem loc_csByN (l : Loc) (f : String) : (l.ren τ).csByN f = (l.csByN f).map (List.map (Loc.ren τ)) := by
  rw [Loc.csByN, loc_children, filter_ren τ (p := fun c => c.node.field == some f) (fun l => by
    show ((l.node.ren τ).field == some f) = _
    rw [node_field]), Loc.csByN]
  cases l.children.filter (fun c => c.node.field == some f) <;> rfl
theorem loc_nextNamed (l : Loc) : (l.ren τ).nextNamed = l.nextNamed.map (Loc.ren τ) := by
  rw [Loc.nextNamed, loc_right, find_ren τ (p := fun c => c.named && !c.extra) (fun l => by rw [loc_named, loc_extra]), Loc.nextNamed]
  cases l.rightSiblings.find? (fun c => c.named && !c.extra) <;> rfl

theorem assertCheck_ren (l : Loc) (k : String) : assertCheck (l.ren τ) k = assertCheck l k := by
  rw [assertCheck, assertCheck, loc_kind]

/-! ### Programs -/

/-- The punctuation with another id. -/
def Punc.ren (p : Punc) : Punc := ⟨p.isComma, (τ p.id).id⟩

mutual
/-- The program with other ids. -/
def Prog.ren (τ : Nat → Pos) : Prog → Prog
  | .txt s => .txt s
  | .nl => .nl
  | .softline => .softline
  | .maybeline => .maybeline
  | .forceBreak => .forceBreak
  | .sep b => .sep b
  | .concat ps => .concat (Prog.rens τ ps)
  | .group p => .group (Prog.ren τ p)
  | .indent p => .indent (Prog.ren τ p)
  | .dedent p => .dedent (Prog.ren τ p)
  | .pre id => .pre (τ id).id
  | .post id => .post (τ id).id
  | .dangling id => .dangling (τ id).id
  | .rootDangling id => .rootDangling (τ id).id
  | .punct p => .punct (p.ren τ)
  | .ifDangling id p q => .ifDangling (τ id).id (Prog.ren τ p) (Prog.ren τ q)
  | .fail e => .fail e
/-- The programs with other ids. -/
def Prog.rens (τ : Nat → Pos) : List Prog → List Prog
  | [] => []
  | p :: ps => Prog.ren τ p :: Prog.rens τ ps
end

theorem rens_eq (ps : List Prog) : Prog.rens τ ps = ps.map (Prog.ren τ) := by
  induction ps with
  | nil => rw [Prog.rens, List.map_nil]
  | cons n ns ih => rw [Prog.rens, ih, List.map_cons]

theorem ren_append (ps qs : List Prog) : Prog.rens τ (ps ++ qs) = Prog.rens τ ps ++ Prog.rens τ qs := by
  simp only [rens_eq, List.map_append]

/-! ### Locations in a tree and their skeletons -/

/-- The locations of a tree. -/
inductive In (root : Node) : Loc → Prop where
  | root : In root ⟨root, []⟩
  | child {l c : Loc} : In root l → c ∈ l.children → In root c

/-- Kind of the parent. -/
def Loc.pkind (l : Loc) : String :=
  match l.path with
  | [] => ""
  | f :: _ => f.parent.kind
/-- Field of the parent. -/
def Loc.pfield (l : Loc) : Option String :=
  match l.path with
  | [] => none
  | f :: _ => f.parent.field
/-- The location is a body. -/
def Loc.isBody (l : Loc) : Bool := isBodyNode l.pkind l.node.field l.kind
/-- The parent is a body. -/
def Loc.inBody (l : Loc) : Bool :=
  match l.parent with
  | none => false
  | some p => p.isBody
/-- The siblings on the left. -/
def Loc.leftNodes (l : Loc) : List Node :=
  match l.path with
  | [] => []
  | f :: _ => f.lefts
/-- The siblings on the right. -/
def Loc.rightNodes (l : Loc) : List Node :=
  match l.path with
  | [] => []
  | f :: _ => f.rights
/-- The skeleton of the node at a location. -/
def Loc.skel (checks : Bool) (l : Loc) : Skel := l.node.skel checks l.pkind l.pfield l.inBody l.leftNodes l.rightNodes

/-- The children of a skeleton. -/
def Skel.kids : Skel → List Skel
  | .mk _ _ _ _ _ _ _ _ ks => ks
/-- The text of a skeleton. -/
def Skel.word : Skel → Option Str
  | .mk _ _ _ _ _ t _ _ _ => t
/-- The lines around a skeleton. -/
def Skel.lines : Skel → Around
  | .mk _ _ _ _ _ _ a _ _ => a
/-- Order of operator and operand of a skeleton. -/
def Skel.opFirst : Skel → Option Bool
  | .mk _ _ _ _ _ _ _ o _ => o

theorem skels_go (checks : Bool) (p : Loc) : ∀ lefts rest, (Loc.childrenGo p lefts rest).map (Loc.skel checks) =
    skels checks p.kind p.node.field p.isBody lefts rest
  | _, [] => by rw [Loc.childrenGo, skels, List.map_nil]
  | lefts, c :: rest => by
    rw [Loc.childrenGo, skels, List.map_cons, skels_go checks p (c :: lefts) rest]
    rfl

theorem skel_kids (checks : Bool) (l : Loc) : (l.skel checks).kids = l.children.map (Loc.skel checks) := by
  obtain ⟨n, path⟩ := l
  rw [Loc.children, skels_go]
  cases n
  rw [Loc.skel, Node.skel]
  rfl

theorem skel_word (checks : Bool) (l : Loc) : (l.skel checks).word = if l.node.shown l.pkind l.pfield then some (l.node.spelling l.pkind l.pfield) else none := by
  obtain ⟨n, path⟩ := l
  cases n
  rw [Loc.skel, Node.skel]
  rfl
theorem skel_lines (checks : Bool) (l : Loc) : (l.skel checks).lines = around checks l.inBody l.leftNodes l.node l.rightNodes := by
  obtain ⟨n, path⟩ := l
  cases n
  rw [Loc.skel, Node.skel]
  rfl
theorem skel_opFirst (checks : Bool) (l : Loc) : (l.skel checks).opFirst = l.node.operatorFirst := by
  obtain ⟨n, path⟩ := l
  cases n
  rw [Loc.skel, Node.skel]
  rfl

theorem map_eq_of {α β : Type} {f g : α → β} : ∀ {l : List α}, l.map f = l.map g → ∀ x ∈ l, f x = g x
  | [], _, _, hx => absurd hx (List.not_mem_nil)
  | a :: l, h, x, hx => by
    rw [List.map_cons, List.map_cons, List.cons.injEq] at h
    rcases List.mem_cons.mp hx with rfl | hx
    · exact h.1
    · exact map_eq_of h.2 x hx

/-- If the skeletons of the roots agree, so do those at all locations. -/
theorem look {checks : Bool} {root : Node} (h : skeleton checks root = skeleton checks (root.ren τ)) {l : Loc} (hl : In root l) :
    l.skel checks = (l.ren τ).skel checks := by
  induction hl with
  | root => exact h
  | @child l c _ hc ih =>
    have := congrArg Skel.kids ih
    rw [skel_kids, skel_kids, loc_children, List.map_map] at this
    exact map_eq_of this c hc

theorem in_parent {root : Node} {l p : Loc} (hl : In root l) (hp : l.parent = some p) : In root p := by
  cases hl with
  | root => exact absurd hp (by rintro ⟨⟩)
  | child h hc =>
    rw [children_parent hc, Option.some.injEq] at hp
    exact hp ▸ h

theorem in_right {root : Node} {l s : Loc} (hl : In root l) (hs : s ∈ l.rightSiblings) : In root s := by
  cases hl with
  | root => exact absurd hs (List.not_mem_nil)
  | child h hc => exact .child h (children_right hc hs)

end Afmt
