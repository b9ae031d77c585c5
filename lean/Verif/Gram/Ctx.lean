import Verif.Gram.Content
import Verif.PropsCollect

/-!
# Content of a tree, and what is known about comment buckets at a location
-/

namespace Afmt.Gram
open Prog

/-! ### Content of nodes -/

/-- How the comments before a node keep their place: line comments before `,` and `;` are printed after them, those before
a `FOR` clause after `FOR`, those before the fields of an object in a `RETURNING` clause before the `(`. -/
def preHold (kind : String) : Hold :=
  if [",", ";", "for_clause", "selected_fields"].contains kind then .loose else .firm

/-- How the comments after a node keep their place: those after an accessor are printed before its `;`, those after the
fields of an object in a `RETURNING` clause after the `)`. -/
def postHold (kind : String) : Hold :=
  if kind == "selected_fields" then .wild else if kind == "accessor_declaration" then .loose else .firm

/-- Comments before a node or inside it. -/
def bcom (cm : CMap) (kind : String) (id : Nat) : Cont :=
  match cm.get? id with
  | some b => comC (preHold kind) b.pre ++ comC .loose b.dangling
  | none => []

/-- Comments after a node. -/
def acom (cm : CMap) (kind : String) (id : Nat) : Cont :=
  match cm.get? id with
  | some b => comC (postHold kind) b.post
  | none => []

/-- Comments of the bucket of a node. -/
def bag (cm : CMap) (id : Nat) : List Comment :=
  match cm.get? id with
  | some b => b.all
  | none => []

/-- Code of a leaf. -/
def leafCode (n : Node) : List (Bool × Letter) :=
  (letters false n.text).map (fun c => (!n.named || foldKinds.contains n.kind, c))

/-- The flag of the line break after a member with the siblings to its right. -/
def trailing (cm : CMap) (c : Node) (cs : List Node) : Bool :=
  match (cm.get? c.id).bind (fun b => b.post.getLast?) with
  | some k => k.meta'.hasEmptyLineBelow
  | none =>
    match cs.find? (·.named) with
    | none => false
    | some s => s.startRow == 0 || decide (c.endRow < s.startRow - 1)

/-- The node is a member. -/
def isMember (n : Node) : Bool := n.named && !n.extra

/-- The line break after a child of a body. -/
def brk (cm : CMap) (c : Node) (cs : List Node) : Cont :=
  if isMember c && cs.any isMember then sepC (trailing cm c cs) else []

mutual
/-- Code of a node, comments of its buckets and line breaks between members. -/
def cont (cm : CMap) : Node → Cont
  | .mk id kind named extra _ _ _ _ _ _ text children =>
    if extra then []
    else (if named || isAssociableUnnamedKind kind then bcom cm kind id else []) ++
      (match children with
      | [] => inlC ((letters false text).map (fun c => (!named || foldKinds.contains kind, c)))
      | c :: cs => cont cm c ++ ((if bodyKinds.contains kind then brk cm c cs else []) ++ conts cm (bodyKinds.contains kind) cs)) ++
      (if named || isAssociableUnnamedKind kind then acom cm kind id else [])
/-- `cont` of siblings; the flag says whether they are children of a body. -/
def conts (cm : CMap) (body : Bool) : List Node → Cont
  | [] => []
  | c :: cs => cont cm c ++ ((if body then brk cm c cs else []) ++ conts cm body cs)
end

theorem codeC_bcom (cm : CMap) (kind : String) (id : Nat) : codeC (bcom cm kind id) = [] := by unfold bcom; split <;> simp
theorem codeC_acom (cm : CMap) (kind : String) (id : Nat) : codeC (acom cm kind id) = [] := by unfold acom; split <;> simp
theorem codeC_bcomIf (cm : CMap) (b : Bool) (kind : String) (id : Nat) : codeC (if b then bcom cm kind id else []) = [] := by
  cases b
  · rfl
  · exact codeC_bcom cm kind id
theorem codeC_acomIf (cm : CMap) (b : Bool) (kind : String) (id : Nat) : codeC (if b then acom cm kind id else []) = [] := by
  cases b
  · rfl
  · exact codeC_acom cm kind id

theorem bcom_eq {cm : CMap} {id : Nat} {b : Bucket} (h : cm.get? id = some b) (kind : String) :
    bcom cm kind id = comC (preHold kind) b.pre ++ comC .loose b.dangling := by simp [bcom, h]
theorem acom_eq {cm : CMap} {id : Nat} {b : Bucket} (h : cm.get? id = some b) (kind : String) :
    acom cm kind id = comC (postHold kind) b.post := by simp [acom, h]
theorem bcom_bag {cm : CMap} {id : Nat} (h : bag cm id = []) (kind : String) : bcom cm kind id = [] := by
  unfold bag at h; unfold bcom
  cases e : cm.get? id with
  | none => rfl
  | some b => rw [e] at h; simp only [Bucket.all, List.append_eq_nil_iff] at h; simp [h]
theorem acom_bag {cm : CMap} {id : Nat} (h : bag cm id = []) (kind : String) : acom cm kind id = [] := by
  unfold bag at h; unfold acom
  cases e : cm.get? id with
  | none => rfl
  | some b => rw [e] at h; simp only [Bucket.all, List.append_eq_nil_iff] at h; simp [h]

theorem lets_brk (cm : CMap) (c : Node) (cs : List Node) (b : Bool) : lets (codeC (if b then brk cm c cs else [])) = [] := by
  unfold brk; split
  · split <;> simp
  · rfl

theorem coms_brk (cm : CMap) (c : Node) (cs : List Node) (b : Bool) : coms (if b then brk cm c cs else []) = [] := by
  unfold brk; split
  · split <;> simp
  · rfl

mutual
theorem lets_cont (cm : CMap) : ∀ n : Node, lets (codeC (cont cm n)) = lex n
  | .mk id kind named extra _ _ _ _ _ _ text children => by
    have h0 := codeC_bcomIf cm (named || isAssociableUnnamedKind kind) kind id
    have h0' := codeC_acomIf cm (named || isAssociableUnnamedKind kind) kind id
    cases extra with
    | true => cases children <;> simp [cont, lex]
    | false =>
      cases children with
      | nil => simp only [cont, lex, Bool.false_eq_true, if_false, codeC_append, h0, h0', codeC_inl, List.nil_append, List.append_nil, lets_lift]
      | cons c cs =>
        simp only [cont, lex, Bool.false_eq_true, if_false, codeC_append, h0, h0', List.append_nil, lets_append, lets_cont cm c,
          lets_conts cm _ cs, lets_brk, List.nil_append]
theorem lets_conts (cm : CMap) (b : Bool) : ∀ ns : List Node, lets (codeC (conts cm b ns)) = lexs ns
  | [] => rfl
  | c :: cs => by simp [conts, lexs, lets_cont cm c, lets_conts cm b cs, lets_brk]
end

mutual
theorem lex_code : ∀ n : Node, bare (lex n) = code n
  | .mk id kind named extra _ _ _ _ _ _ text children => by
    cases extra with
    | true => cases children <;> simp [lex, code, bare]
    | false =>
      cases children with
      | nil =>
        simp only [lex, code, Bool.false_eq_true, if_false, bare, List.map_map, Function.comp_def]
        rw [← letters_ink text false, List.map_map]
        rfl
      | cons c cs => simp only [lex, code, Bool.false_eq_true, if_false, bare_append, lex_code c, lex_codes cs]
theorem lex_codes : ∀ ns : List Node, bare (lexs ns) = codes ns
  | [] => rfl
  | c :: cs => by rw [lexs, codes, bare_append, lex_code c, lex_codes cs]
end

theorem chars_cont (cm : CMap) (n : Node) : chars (codeC (cont cm n)) = code n := by
  rw [chars, lets_cont, lex_code]
theorem chars_conts (cm : CMap) (b : Bool) (ns : List Node) : chars (codeC (conts cm b ns)) = codes ns := by
  rw [chars, lets_conts, lex_codes]
theorem chars_brk (cm : CMap) (c : Node) (cs : List Node) (b : Bool) : chars (codeC (if b then brk cm c cs else [])) = [] := by
  rw [chars, lets_brk]; rfl

theorem noFrame {kind : String} (h : frameKinds.contains kind = false) : bodyKinds.contains kind = false := by
  simp only [frameKinds, bodyKinds, List.contains_eq_mem, List.mem_append, decide_eq_false_iff_not, not_or] at h ⊢
  exact h.1

mutual
theorem codeC_cont (cm : CMap) : ∀ n : Node, noBody n = true → codeC (cont cm n) = lift (lex n)
  | .mk id kind named extra _ _ _ _ _ _ text children, h => by
    have h0 := codeC_bcomIf cm (named || isAssociableUnnamedKind kind) kind id
    have h0' := codeC_acomIf cm (named || isAssociableUnnamedKind kind) kind id
    simp only [noBody, Bool.and_eq_true, Bool.not_eq_true'] at h
    have hf := noFrame h.1
    cases extra with
    | true => cases children <;> simp [cont, lex, lift]
    | false =>
      cases children with
      | nil => simp only [cont, lex, Bool.false_eq_true, if_false, codeC_append, h0, h0', codeC_inl, List.nil_append, List.append_nil]
      | cons c cs =>
        rw [noBodies, Bool.and_eq_true] at h
        simp only [cont, lex, Bool.false_eq_true, if_false, codeC_append, h0, h0', List.append_nil, hf, codeC_cont cm c h.2.1,
          codeC_conts cm cs h.2.2, codeC_nil, List.nil_append, lift_append]
theorem codeC_conts (cm : CMap) : ∀ ns : List Node, noBodies ns = true → codeC (conts cm false ns) = lift (lexs ns)
  | [], _ => rfl
  | c :: cs, h => by
    rw [noBodies, Bool.and_eq_true] at h
    simp [conts, lexs, codeC_cont cm c h.1, codeC_conts cm cs h.2, lift_append]
end

theorem cont_extra (cm : CMap) {n : Node} (h : n.extra = true) : cont cm n = [] := by
  cases n with
  | mk _ _ _ _ _ _ _ _ _ _ _ children => simp only at h; subst h; cases children <;> simp [cont]

theorem conts_filter (cm : CMap) (ns : List Node) :
    conts cm false ns = (ns.filter (fun n => !n.extra)).flatMap (cont cm) := by
  induction ns with
  | nil => rfl
  | cons c cs ih =>
    cases he : c.extra with
    | true => simp [conts, cont_extra cm he, he, ih]
    | false => simp [conts, he, ih]

theorem cont_eq (cm : CMap) {n : Node} (h : n.extra = false) (ht : n.children ≠ [] ∨ ink n.text = []) :
    cont cm n = (if n.associable then bcom cm n.kind n.id else []) ++ conts cm (bodyKinds.contains n.kind) n.children ++
      (if n.associable then acom cm n.kind n.id else []) := by
  cases n with
  | mk id kind named extra err field sr er sb eb text children =>
    simp only at h ht
    subst h
    cases children with
    | nil => simp_all [cont, conts, Node.associable, inlC, lift, letters_nil]
    | cons c cs => simp only [cont, Node.associable, conts]; simp

theorem cont_leaf (cm : CMap) {n : Node} (h : n.extra = false) (hc : n.children = []) :
    cont cm n = (if n.associable then bcom cm n.kind n.id else []) ++ inlC (leafCode n) ++
      (if n.associable then acom cm n.kind n.id else []) := by
  cases n with
  | mk id kind named extra err field sr er sb eb text children =>
    simp only at h hc
    subst h hc
    simp [cont, Node.associable, leafCode]

/-! ### Locations -/

/-- Children that are no comments. -/
def view (l : Loc) : List Loc := l.children.filter (fun c => !c.extra)

theorem childrenGo_map (p : Loc) : ∀ lefts rest, (Loc.childrenGo p lefts rest).map Loc.node = rest
  | _, [] => rfl
  | lefts, c :: r => by simp [Loc.childrenGo, childrenGo_map p (c :: lefts) r]

theorem children_map (l : Loc) : l.children.map Loc.node = l.node.children := childrenGo_map l [] _

theorem view_map (l : Loc) : (view l).map Loc.node = l.node.children.filter (fun n => !n.extra) := by
  rw [← children_map l, List.filter_map]; rfl

/-- The right siblings that are no comments. -/
def nexts (x : Loc) : List Loc := x.rightSiblings.filter (fun c => !c.extra)

/-- Every location is followed by the next ones in the list. -/
def Nexts : List Loc → Prop
  | [] => True
  | x :: r => nexts x = r ∧ Nexts r

theorem childrenGo_nexts (p : Loc) : ∀ lefts rest, Nexts ((Loc.childrenGo p lefts rest).filter (fun c => !c.extra))
  | _, [] => trivial
  | lefts, c :: r => by
    have ih := childrenGo_nexts p (c :: lefts) r
    rw [Loc.childrenGo, List.filter_cons]
    split
    · exact ⟨rfl, ih⟩
    · exact ih

theorem view_nexts (l : Loc) : Nexts (view l) := childrenGo_nexts l [] _

theorem childrenGo_right (p : Loc) : ∀ lefts rest, ∀ x ∈ Loc.childrenGo p lefts rest, ∀ s ∈ x.rightSiblings,
    s ∈ Loc.childrenGo p lefts rest
  | _, [], x, hx => by cases hx
  | lefts, c :: r, x, hx => by
    intro s hs
    rw [Loc.childrenGo] at hx ⊢
    rcases List.mem_cons.1 hx with rfl | hx
    · exact List.mem_cons_of_mem _ hs
    · exact List.mem_cons_of_mem _ (childrenGo_right p (c :: lefts) r x hx s hs)

theorem children_right {l x s : Loc} (hx : x ∈ l.children) (hs : s ∈ x.rightSiblings) : s ∈ l.children :=
  childrenGo_right l [] _ x hx s hs

theorem childrenGo_parent (p : Loc) : ∀ lefts rest, ∀ x ∈ Loc.childrenGo p lefts rest, x.parent = some p
  | _, [], x, hx => by cases hx
  | lefts, c :: r, x, hx => by
    rw [Loc.childrenGo] at hx
    rcases List.mem_cons.1 hx with rfl | hx
    · rfl
    · exact childrenGo_parent p (c :: lefts) r x hx

theorem children_parent {l x : Loc} (hx : x ∈ l.children) : x.parent = some l := childrenGo_parent l [] _ x hx

theorem mem_children_node {l x : Loc} (hx : x ∈ l.children) : x.node ∈ l.node.children := by
  rw [← children_map l]; exact List.mem_map_of_mem hx

theorem mem_view {l x : Loc} : x ∈ view l ↔ x ∈ l.children ∧ x.node.extra = false := by
  simp [view, Loc.extra]

/-- Content of the children. -/
def inner (cm : CMap) (l : Loc) : Cont := conts cm (bodyKinds.contains l.kind) l.node.children

/-- Content of the `,` or `;` that follows. -/
def pcont (cm : CMap) (l : Loc) : Cont :=
  match nexts l with
  | [] => []
  | s :: _ => if isPunctuationKind s.kind then cont cm s.node else []

/-- Content of a node with the `,` or `;` that follows. -/
def full (cm : CMap) (l : Loc) : Cont := cont cm l.node ++ pcont cm l

/-- `full` of an optional location. -/
def ofull (cm : CMap) : Option Loc → Cont
  | none => []
  | some x => full cm x

/-- The flag of the line break after a member. -/
def tr (cm : CMap) (x : Loc) : Bool := trailing cm x.node (x.rightSiblings.map Loc.node)

/-- Content of children of a body. -/
def joinB (cm : CMap) : List Loc → Cont
  | [] => []
  | x :: r => cont cm x.node ++ ((if x.node.named && r.any (fun y => y.node.named) then sepC (tr cm x) else []) ++ joinB cm r)

/-- Content of members with line breaks between them. -/
def sepL (cm : CMap) : List Loc → Cont
  | [] => []
  | [x] => full cm x
  | x :: r => full cm x ++ (sepC (tr cm x) ++ sepL cm r)

theorem childrenGo_any (p : Loc) : ∀ lefts rest, ((Loc.childrenGo p lefts rest).filter (fun c => !c.extra)).any
    (fun y => y.node.named) = rest.any isMember
  | _, [] => rfl
  | lefts, c :: r => by
    have ih := childrenGo_any p (c :: lefts) r
    rw [Loc.childrenGo, List.filter_cons, List.any_cons]
    cases he : c.extra with
    | true => rw [if_neg (by simp [Loc.extra, he]), ih]; simp [isMember, he]
    | false => rw [if_pos (by simp [Loc.extra, he]), List.any_cons, ih]; simp [isMember, he]

theorem childrenGo_join (cm : CMap) (p : Loc) : ∀ lefts rest,
    conts cm true rest = joinB cm ((Loc.childrenGo p lefts rest).filter (fun c => !c.extra))
  | _, [] => rfl
  | lefts, c :: r => by
    have ih := childrenGo_join cm p (c :: lefts) r
    have ha := childrenGo_any p (c :: lefts) r
    rw [Loc.childrenGo, List.filter_cons, conts, if_pos rfl]
    cases he : c.extra with
    | true => rw [if_neg (by simp [Loc.extra, he]), ← ih]; simp [cont_extra cm he, brk, isMember, he]
    | false =>
      rw [if_pos (by simp [Loc.extra, he]), joinB, ← ih, ha]
      have : tr cm ⟨c, ⟨p.node, lefts, r⟩ :: p.path⟩ = trailing cm c r := by
        rw [tr]; exact congrArg (trailing cm c) (childrenGo_map p (c :: lefts) r)
      rw [this]
      simp [brk, isMember, he]

theorem inner_body (cm : CMap) (l : Loc) (h : bodyKinds.contains l.kind = true) : inner cm l = joinB cm (view l) := by
  rw [inner, h]; exact childrenGo_join cm l [] _

theorem joinB_tail (cm : CMap) : ∀ t : List Loc, (∀ y ∈ t, y.node.named = false) →
    joinB cm t = t.flatMap (fun x => cont cm x.node)
  | [], _ => rfl
  | y :: t, h => by
    rw [joinB, h y (by simp), joinB_tail cm t (fun z hz => h z (by simp [hz]))]
    rfl

theorem joinB_many (cm : CMap) : ∀ xs t : List Loc, Nexts (xs ++ t) →
    (∀ x ∈ xs, x.node.named = true ∧ isPunctuationKind x.kind = false) →
    (∀ y ∈ t, y.node.named = false ∧ isPunctuationKind y.kind = false) →
    joinB cm (xs ++ t) = sepL cm xs ++ joinB cm t
  | [], t, _, _, _ => rfl
  | [x], t, hn, hx, ht => by
    have hp : pcont cm x = [] := by
      rw [pcont, hn.1]
      cases t with
      | nil => rfl
      | cons y t => simp [(ht y (by simp)).2]
    have ha : ¬ t.any (fun y => y.node.named) = true := by
      rw [List.any_eq_true]
      rintro ⟨y, hy, e⟩
      rw [(ht y hy).1] at e
      cases e
    simp only [List.cons_append, List.nil_append, joinB, sepL, full, hp, ha, Bool.and_false, Bool.false_eq_true, if_false, List.append_nil]
  | x :: x' :: xs, t, hn, hx, ht => by
    have ih := joinB_many cm (x' :: xs) t hn.2 (fun y hy => hx y (by simp [hy])) ht
    have hp : pcont cm x = [] := by
      rw [pcont, hn.1]
      simp [(hx x' (by simp)).2]
    have ha : ((x' :: xs) ++ t).any (fun y => y.node.named) = true := by
      simp [(hx x' (by simp)).1]
    have hs : sepL cm (x :: x' :: xs) = full cm x ++ (sepC (tr cm x) ++ sepL cm (x' :: xs)) := by
      rw [sepL]; simp
    rw [List.cons_append, joinB, ih, ha, (hx x (by simp)).1, hs]
    simp [full, hp]

theorem inner_eq (cm : CMap) (l : Loc) (h : bodyKinds.contains l.kind = false) :
    inner cm l = (view l).flatMap (fun x => cont cm x.node) := by
  rw [inner, h, conts_filter, ← view_map, List.flatMap_map]

theorem punc_search (ls : List Loc) : Punc.search ls =
    match ls.filter (fun c => !c.extra) with
    | [] => none
    | s :: _ => if isPunctuationKind s.kind then some (Punc.ofLoc s) else none := by
  induction ls with
  | nil => rfl
  | cons s ss ih =>
    rw [Punc.search]
    cases he : s.extra with
    | true => simp [he, ih]
    | false => simp [he]

theorem punc_from (l : Loc) : Punc.from l =
    match nexts l with
    | [] => none
    | s :: _ => if isPunctuationKind s.kind then some (Punc.ofLoc s) else none := punc_search _

/-! ### Code nodes and the parents of comments -/

mutual
theorem code_trans : ∀ (n m c : Node), m ∈ n.codeNodes → c ∈ m.children → c.associable = true → c ∈ n.codeNodes
  | .mk id kind named extra err field sr er sb eb text children, m, c, hm, hc, ha => by
    rw [Node.codeNodes] at hm ⊢
    rcases List.mem_cons.1 hm with rfl | hm
    · exact List.mem_cons_of_mem _ (mem_kidsCode_of_mem hc ha)
    · exact List.mem_cons_of_mem _ (kids_trans children m c hm hc ha)
theorem kids_trans : ∀ (ns : List Node) (m c : Node), m ∈ kidsCode ns → c ∈ m.children → c.associable = true →
    c ∈ kidsCode ns
  | [], m, c, hm, _, _ => by cases hm
  | n :: ns, m, c, hm, hc, ha => by
    rw [kidsCode] at hm ⊢
    rcases List.mem_append.1 hm with hm | hm
    · refine List.mem_append_left _ ?_
      split at hm
      · rename_i h; rw [if_pos h]; exact code_trans n m c hm hc ha
      · cases hm
    · exact List.mem_append_right _ (kids_trans ns m c hm hc ha)
end

mutual
theorem extras_parent : ∀ (n : Node), n.Closed → ∀ o ∈ n.extras, ∃ m ∈ n.codeNodes, m.id = o.parent ∧
    m.children = o.lefts.reverse ++ o.node :: o.rights ∧ o.node.extra = true
  | .mk id kind named extra err field sr er sb eb text children, hc, o, ho => by
    rw [Node.extras] at ho
    rcases kids_parent id children [] (by simpa [Node.Closed] using hc) o ho with ⟨h1, h2, h3⟩ | ⟨m, hm, h⟩
    · exact ⟨_, mem_codeNodes_self _, h1.symm, h2, h3⟩
    · refine ⟨m, ?_, h⟩
      rw [Node.codeNodes]
      exact List.mem_cons_of_mem _ hm
theorem kids_parent (pid : Nat) : ∀ (ns lefts : List Node), kidsClosed ns → ∀ o ∈ kidsExtras pid lefts ns,
    (o.parent = pid ∧ lefts.reverse ++ ns = o.lefts.reverse ++ o.node :: o.rights ∧ o.node.extra = true) ∨
    ∃ m ∈ kidsCode ns, m.id = o.parent ∧ m.children = o.lefts.reverse ++ o.node :: o.rights ∧ o.node.extra = true
  | [], lefts, _, o, ho => by cases ho
  | c :: r, lefts, hcl, o, ho => by
    rw [kidsClosed] at hcl
    obtain ⟨h1, h2, h3⟩ := hcl
    rw [kidsExtras, List.append_assoc] at ho
    rcases List.mem_append.1 ho with ho | ho
    · left
      split at ho
      · rename_i he
        simp only [List.mem_cons, List.not_mem_nil, or_false] at ho
        subst ho
        exact ⟨rfl, rfl, he⟩
      · cases ho
    · rcases List.mem_append.1 ho with ho | ho
      · right
        obtain ⟨m, hm, h⟩ := extras_parent c h2 o ho
        refine ⟨m, ?_, h⟩
        rw [kidsCode]
        cases ha : c.associable with
        | true => simp [hm]
        | false => rw [extras_of_leaf (h1 ha)] at ho; cases ho
      · rcases kids_parent pid r (c :: lefts) h3 o ho with ⟨a, b, d⟩ | ⟨m, hm, h⟩
        · left; exact ⟨a, by simpa using b, d⟩
        · right; refine ⟨m, ?_, h⟩; rw [kidsCode]; exact List.mem_append_right _ hm
end

/-- The owner of a comment, when it is a sibling, is associable. -/
theorem owner_assoc (o : Occ) (k : Nat) (h : o.owner = .pre k ∨ o.owner = .post k) :
    ∃ s ∈ o.lefts ++ o.rights, s.associable = true ∧ s.id = k := by
  have hfar : ∀ {x}, farOwner o.parent o.lefts o.rights = x → (x = .pre k ∨ x = .post k) →
      ∃ s ∈ o.lefts ++ o.rights, s.associable = true ∧ s.id = k := by
    intro x hx hk
    subst hx
    unfold farOwner at hk
    cases hr : o.rights.find? (·.associable) with
    | some s =>
      simp only [hr] at hk
      refine ⟨s, by simp [List.mem_of_find?_eq_some hr], by simpa using List.find?_some hr, ?_⟩
      rcases hk with hk | hk <;> cases hk; rfl
    | none =>
      cases hl : o.lefts.find? (·.associable) with
      | some s =>
        simp only [hr, hl] at hk
        refine ⟨s, by simp [List.mem_of_find?_eq_some hl], by simpa using List.find?_some hl, ?_⟩
        rcases hk with hk | hk <;> cases hk; rfl
      | none =>
        simp only [hr, hl] at hk
        rcases hk with hk | hk <;> cases hk
  unfold Occ.owner at h
  cases hl : o.lefts.find? (·.associable) with
  | none => simp only [hl] at h; exact hfar rfl h
  | some l =>
    have hla : l.associable = true := by simpa using List.find?_some hl
    have hlm : l ∈ o.lefts ++ o.rights := by simp [List.mem_of_find?_eq_some hl]
    simp only [hl] at h
    cases hr : o.rights.find? (fun s => !s.extra) with
    | none =>
      simp only [hr] at h
      refine ⟨l, hlm, hla, ?_⟩
      rcases h with h | h <;> cases h; rfl
    | some s =>
      simp only [hr] at h
      split at h
      · rename_i hp
        refine ⟨s, by simp [List.mem_of_find?_eq_some hr],
          punct_associable (by simpa using List.find?_some hr) ((isPunct_iff _).2 hp), ?_⟩
        rcases h with h | h <;> cases h; rfl
      · split at h
        · refine ⟨l, hlm, hla, ?_⟩
          rcases h with h | h <;> cases h; rfl
        · exact hfar rfl h

/-- Ids of code nodes. -/
def ids (n : Node) : List Nat := n.codeNodes.map (·.id)
/-- Ids of code nodes of siblings. -/
def idss (ns : List Node) : List Nat := (kidsCode ns).map (·.id)

theorem ids_eq (n : Node) : ids n = n.id :: idss n.children := by rw [ids, codeNodes_eq]; rfl
theorem idss_cons (n : Node) (ns : List Node) : idss (n :: ns) = (if n.associable then ids n else []) ++ idss ns := by
  rw [idss, kidsCode]; split <;> simp [idss, ids]

theorem id_mem {n m : Node} (h : m ∈ n.codeNodes) : m.id ∈ ids n := List.mem_map_of_mem h

/-- Different code nodes have different ids. -/
theorem code_inj {n m p : Node} (hn : (ids n).Nodup) (hm : m ∈ n.codeNodes) (hp : p ∈ n.codeNodes) (h : m.id = p.id) :
    m = p := by
  unfold ids at hn
  generalize n.codeNodes = L at hn hm hp
  induction L with
  | nil => cases hm
  | cons a L ih =>
    rw [List.map_cons, List.nodup_cons] at hn
    rcases List.mem_cons.1 hm with e | hm'
    · rcases List.mem_cons.1 hp with e' | hp'
      · rw [e, e']
      · exact absurd (List.mem_map.2 ⟨p, hp', by rw [← h, e]⟩) hn.1
    · rcases List.mem_cons.1 hp with e' | hp'
      · exact absurd (List.mem_map.2 ⟨m, hm', by rw [h, e']⟩) hn.1
      · exact ih hn.2 hm' hp'

mutual
/-- A code node is child of at most one code node. -/
theorem parent_unique : ∀ (n : Node), (ids n).Nodup → ∀ {m p s x : Node}, m ∈ n.codeNodes → p ∈ n.codeNodes →
    s ∈ m.children → s.associable = true → x ∈ p.children → x.associable = true → s.id = x.id → m.id = p.id
  | .mk id kind named extra err field sr er sb eb text children, hn, m, p, s, x, hm, hp, hs, hsa, hx, hxa, e => by
    rw [ids_eq, List.nodup_cons] at hn
    rw [Node.codeNodes] at hm hp
    rcases List.mem_cons.1 hm with rfl | hm
    · rcases List.mem_cons.1 hp with rfl | hp
      · rfl
      · exact absurd e (kids_unique1 children hn.2 hs hsa hp hx hxa)
    · rcases List.mem_cons.1 hp with rfl | hp
      · exact absurd e.symm (kids_unique1 children hn.2 hx hxa hm hs hsa)
      · exact kids_unique children hn.2 hm hp hs hsa hx hxa e
theorem kids_unique : ∀ (ns : List Node), (idss ns).Nodup → ∀ {m p s x : Node}, m ∈ kidsCode ns → p ∈ kidsCode ns →
    s ∈ m.children → s.associable = true → x ∈ p.children → x.associable = true → s.id = x.id → m.id = p.id
  | [], _, m, _, _, _, hm, _, _, _, _, _, _ => by cases hm
  | n :: ns, hn, m, p, s, x, hm, hp, hs, hsa, hx, hxa, e => by
    rw [idss_cons, List.nodup_append] at hn
    rw [kidsCode] at hm hp
    cases ha : n.associable with
    | false =>
      simp only [ha, Bool.false_eq_true, if_false, List.nil_append] at hm hp
      exact kids_unique ns hn.2.1 hm hp hs hsa hx hxa e
    | true =>
      simp only [ha, if_true] at hm hp hn
      rcases List.mem_append.1 hm with hm | hm
      · rcases List.mem_append.1 hp with hp | hp
        · exact parent_unique n hn.1 hm hp hs hsa hx hxa e
        · exact absurd e (hn.2.2 _ (id_mem (code_trans n m s hm hs hsa)) _
            (List.mem_map_of_mem (kids_trans ns p x hp hx hxa)))
      · rcases List.mem_append.1 hp with hp | hp
        · exact absurd e.symm (hn.2.2 _ (id_mem (code_trans n p x hp hx hxa)) _
            (List.mem_map_of_mem (kids_trans ns m s hm hs hsa)))
        · exact kids_unique ns hn.2.1 hm hp hs hsa hx hxa e
theorem kids_unique1 : ∀ (ns : List Node), (idss ns).Nodup → ∀ {p s x : Node}, s ∈ ns → s.associable = true →
    p ∈ kidsCode ns → x ∈ p.children → x.associable = true → s.id ≠ x.id
  | [], _, _, s, _, hs, _, _, _, _ => by cases hs
  | n :: ns, hn, p, s, x, hs, hsa, hp, hx, hxa => by
    intro e
    rw [idss_cons, List.nodup_append] at hn
    rw [kidsCode] at hp
    rcases List.mem_cons.1 hs with rfl | hs
    · simp only [hsa, if_true] at hp hn
      rcases List.mem_append.1 hp with hp | hp
      · have hn1 := hn.1
        rw [ids_eq, List.nodup_cons] at hn1
        apply hn1.1
        rw [e]
        rw [codeNodes_eq] at hp
        rcases List.mem_cons.1 hp with rfl | hp
        · exact List.mem_map_of_mem (mem_kidsCode_of_mem hx hxa)
        · exact List.mem_map_of_mem (kids_trans _ p x hp hx hxa)
      · exact hn.2.2 _ (id_mem (mem_codeNodes_self s)) _ (List.mem_map_of_mem (kids_trans ns p x hp hx hxa)) e
    · cases ha : n.associable with
      | false =>
        simp only [ha, Bool.false_eq_true, if_false, List.nil_append] at hp
        exact kids_unique1 ns hn.2.1 hs hsa hp hx hxa e
      | true =>
        simp only [ha, if_true] at hp hn
        rcases List.mem_append.1 hp with hp | hp
        · exact hn.2.2 _ (id_mem (code_trans n p x hp hx hxa)) _ (List.mem_map_of_mem (mem_kidsCode_of_mem hs hsa)) e.symm
        · exact kids_unique1 ns hn.2.1 hs hsa hp hx hxa e
end

end Afmt.Gram
