import Verif.Gram.View

/-!
# Rules for the constructors

`W bad r Q`: the result `r` is either a value for which `Q` holds or one of the errors `bad`.  The rules follow the
`do` blocks of the constructors (`Verif/Ast`), given the segments of the children of the node.
-/

namespace Afmt.Gram
open Prog New

/-- The result satisfies `Q` or is an error `bad`. -/
def W (bad : Panic → Prop) {α : Type} (r : R α) (Q : α → Prop) : Prop :=
  match r with
  | .ok a => Q a
  | .error e => bad e

section
variable {bad : Panic → Prop} {α β : Type}

theorem W_ok {a : α} {Q : α → Prop} (h : Q a) : W bad (.ok a) Q := h

theorem W_bind {r : R α} {K : α → R β} {Q : β → Prop} (h : W bad r (fun a => W bad (K a) Q)) : W bad (r >>= K) Q := by
  cases r <;> exact h

theorem W_mono {r : R α} {Q Q' : α → Prop} (h : W bad r Q) (hQ : ∀ a, Q a → Q' a) : W bad r Q' := by
  cases r with
  | ok a => exact hQ a h
  | error e => exact h

theorem W_then {r : R α} {K : α → R β} {P : α → Prop} {Q : β → Prop} (h : W bad r P) (hK : ∀ a, P a → W bad (K a) Q) :
    W bad (r >>= K) Q := W_bind (W_mono h hK)

theorem W_bad {bad' : Panic → Prop} {r : R α} {Q : α → Prop} (h : W bad r Q) (hb : ∀ e, bad e → bad' e) : W bad' r Q := by
  cases r with
  | ok a => exact h
  | error e => exact hb e h

end

/-! ### Depth of trees and kinds of calls -/

mutual
/-- Depth of a tree. -/
def depth : Node → Nat
  | .mk _ _ _ _ _ _ _ _ _ _ _ children => depths children + 1
/-- Depth of siblings. -/
def depths : List Node → Nat
  | [] => 0
  | c :: cs => max (depth c) (depths cs)
end

theorem depths_mem : ∀ {ns : List Node} {c : Node}, c ∈ ns → depth c ≤ depths ns
  | n :: ns, c, h => by
    rw [depths]
    rcases List.mem_cons.1 h with rfl | h
    · exact Nat.le_max_left _ _
    · exact Nat.le_trans (depths_mem h) (Nat.le_max_right _ _)

theorem depth_kid {n c : Node} (h : c ∈ n.children) : depth c < depth n := by
  cases n with
  | mk _ _ _ _ _ _ _ _ _ _ _ children =>
    rw [depth]
    exact Nat.lt_succ_of_le (depths_mem h)

theorem depth_view {l x : Loc} (h : x ∈ view l) : depth x.node < depth l.node :=
  depth_kid (mem_children_node (mem_view.1 h).1)

/-- Order of the classes by which constructors call each other for the same node. -/
def rank : Cls → Nat
  | .valueNode | .valueNodeLowerCase | .valueNodeUpperCase | .comparison => 0
  | .updateExpressionVariant | .dmlExpressionVariant | .functionExpressionVariant | .fieldIdentifierVariant
  | .geoLocationTypeVariant | .selectClauseVariant | .storageIdentifierVariant | .soqlWithTypeVariant => 1
  | .variableInitializer | .objectExpression => 5
  | .expression | .type | .unannotatedType | .comparableListValue => 4
  | .primaryExpression | .simpleType | .soqlLiteral | .rootMember | .classMember | .interfaceMember | .statement
  | .fieldOption | .assignmentLeft | .selectableExpression | .storageVariant | .limitValue | .valueExpression
  | .setValue | .usingClauseOption | .booleanExpression => 3
  | _ => 2

theorem rank_le (c : Cls) : rank c ≤ 5 := by cases c <;> decide

/-- Classes that print the content of their node without its bucket and the punctuation after it. -/
def variantCls : Cls → Bool
  | .updateExpressionVariant | .dmlExpressionVariant | .functionExpressionVariant | .fieldIdentifierVariant
  | .geoLocationTypeVariant | .selectClauseVariant | .storageIdentifierVariant | .soqlWithTypeVariant => true
  | _ => false

/-- Classes that print the content of their node with the punctuation after it. -/
def plainCls : Cls → Bool
  | .comparison | .forClause | .forInitOption => false
  | c => !variantCls c

/-- Content of a node without its bucket. -/
def body (cm : CMap) (l : Loc) : Cont :=
  match l.node.children with
  | [] => inlC (leafCode l.node)
  | _ => inner cm l

/-- The node is no declaration in the header of a `for` statement. -/
def Body (l : Loc) : Prop := l.kind = "local_variable_declaration" → l.node.field ≠ some "init"

/-- The calls of constructors that occur for conforming trees: class, location, printed content and a measure. -/
inductive Call (root : Node) (cm : CMap) : Cls → Loc → Cont → Nat → Prop
  | node {c : Cls} {l : Loc} : Reach root l → plainCls c = true → conf l.node (.cls c) = true → Body l →
      Call root cm c l (full cm l) (8 * depth l.node + rank c)
  | variant {c : Cls} {l : Loc} : Reach root l → variantCls c = true → conf l.node (.cls c) = true →
      bag cm l.id = [] ∨ c ≠ .soqlWithTypeVariant →
      Call root cm c l (body cm l) (8 * depth l.node + rank c)
  | comparison {l : Loc} {a o v : Atom} {x y z : Loc} : Reach root l → sane l.kind l.node.children = true →
      View l [.one a x, .one o y, .one v z] → a ∈ [k0 .valueExpression, tok "NETWORK"] →
      [Spec.one o, Spec.one v] ∈ comparisonTails → Call root cm .comparison l (full cm y ++ full cm z) (8 * depth l.node)
  | forClause {l : Loc} : Reach root l → conf l.node (.cls .forClause) = true →
      Call root cm .forClause l (bcom cm l.kind l.id ++ ((view l).drop 1).flatMap (full cm) ++ acom cm l.kind l.id ++ pcont cm l)
        (8 * depth l.node + 2)
  | forDecl {l : Loc} : Reach root l → conf l.node (.cls .localVariableDeclaration) = true →
      Call root cm .forInitOption l (cont cm l.node) (8 * depth l.node + 6)
  | decl {l : Loc} : Reach root l → conf l.node (.cls .localVariableDeclaration) = true →
      Call root cm .localVariableDeclaration l (cont cm l.node) (8 * depth l.node + 2)
  | forInit {p x : Loc} {xs : List Loc} : Reach root p → sane p.kind p.node.children = true → x ∈ p.children →
      x.kind ≠ "local_variable_declaration" → p.children.filter (fun c => c.node.field == some "init") = xs →
      xs ≠ [] → (∀ y ∈ xs, SatL p (kf "init" .expression) y) →
      Call root cm .forInitOption x (xs.flatMap (full cm)) (8 * depth p.node - 1)

/-- What is known while a constructor runs for the location `l`; the calls with a smaller measure behave. -/
structure Ctx (root : Node) (cm : CMap) (cfg : Cfg) (bad : Panic → Prop) (rec : Rec) (l : Loc) (m : Nat) : Prop where
  good : Good root cm
  cfgcm : cfg.cm = cm
  arith : cfg.checks = true → bad .arithmetic
  reach : Reach root l
  call : ∀ {c x k m'}, Call root cm c x k m' → m' < m → W bad (rec c x) (fun p => Sx (items cm p) k)
  size : 8 * depth l.node ≤ m

/-- The node has the kind and the segments. -/
structure At (l : Loc) (k : String) (sgs : List (Sg Loc)) : Prop where
  kind : l.kind = k
  sane : sane l.kind l.node.children = true
  dml : dmlSane l.node = true
  text : l.node.children ≠ [] ∨ ink l.node.text = []
  view : View l sgs

theorem At.plain {l : Loc} {k : String} {sgs : List (Sg Loc)} (h : At l k sgs) : Plain l := plain_of_sane h.sane

theorem exAlts_mono {α : Type} {sat : Atom → α → Prop} : ∀ {ps : List (List Spec)} {P P' : List (Sg α) → Prop},
    (∀ s, P s → P' s) → ExAlts sat ps P → ExAlts sat ps P' := by
  have ex : ∀ (p : List Spec) {P P' : List (Sg α) → Prop}, (∀ s, P s → P' s) → Ex sat p P → Ex sat p P' := by
    intro p
    induction p with
    | nil => intro P P' h hP; exact h _ hP
    | cons s ss ih =>
      intro P P' h hP
      cases s with
      | one a => obtain ⟨x, hx, hr⟩ := hP; exact ⟨x, hx, ih (fun s => h _) hr⟩
      | opt a => obtain ⟨x, hx, hr⟩ := hP; exact ⟨x, hx, ih (fun s => h _) hr⟩
      | many a => obtain ⟨x, hx, hr⟩ := hP; exact ⟨x, hx, ih (fun s => h _) hr⟩
      | sep1 a t => obtain ⟨x, y, hx, hr⟩ := hP; exact ⟨x, y, hx, ih (fun s => h _) hr⟩
      | sep0 a t => obtain ⟨x, y, hx, hr⟩ := hP; exact ⟨x, y, hx, ih (fun s => h _) hr⟩
      | cond b p t => obtain ⟨x, y, hx, hr⟩ := hP; exact ⟨x, y, hx, ih (fun s => h _) hr⟩
  intro ps
  induction ps with
  | nil => intro P P' _ h; exact h
  | cons p ps ih =>
    intro P P' h hP
    cases ps with
    | nil => exact ex p h hP
    | cons q ps =>
      rcases hP with hP | hP
      · exact Or.inl (ex p h hP)
      · exact Or.inr (ih h hP)

/-- A class that is no choice is its own core. -/
theorem core_self {c : Cls} (h : sub c = []) (k : String) : (NT.cls c).core k = .cls c := by
  simp [NT.core, resolve, h]

/-- The children of the node of a nonterminal with productions. -/
theorem nt_at {l : Loc} {nt : NT} {k : String} {ps : List (List Spec)} (h : conf l.node nt = true)
    (hc : nt.core l.kind = nt) (hp : prod nt = .alts false ps) (hk : nt.kinds = some [k]) :
    ExAlts (SatL l) ps (At l k) := by
  have hp' : prod (nt.core l.node.kind) = .alts false ps := by rw [show nt.core l.node.kind = nt from hc]; exact hp
  have hk' : (nt.core l.node.kind).kinds = some [k] := by rw [show nt.core l.node.kind = nt from hc]; exact hk
  have h1 := (conf_node h).2 _ hk'
  rcases conf_alts h hp' with h2 | ⟨h2, h3, h4, h5⟩
  · cases h2.1
  · refine exAlts_mono ?_ (view_of h5)
    intro sgs hv
    exact ⟨List.mem_singleton.1 h1, h2, h3, h4, hv⟩

theorem cls_at {l : Loc} {c : Cls} {k : String} {ps : List (List Spec)} (h : conf l.node (.cls c) = true)
    (hp : prod (.cls c) = .alts false ps) (hk : (NT.cls c).kinds = some [k]) (hs : sub c = []) :
    ExAlts (SatL l) ps (At l k) := nt_at h (core_self hs _) hp hk

/-- The fixed text of a word. -/
theorem cls_words {l : Loc} {c : Cls} {tbl : List (String × String)} (h : conf l.node (.cls c) = true)
    (hp : prod (.cls c) = .words tbl) (hs : sub c = []) :
    spelled l.node = true ∧ (∀ e ∈ lex l.node, e.1 = true) ∧
      ∃ e ∈ tbl, e.1 = l.kind ∧ foldL (letters false l.node.text) = foldL (letters false e.2.toList) :=
  conf_words h (by rw [core_self hs]; exact hp)

section
variable {root : Node} {cm : CMap} {cfg : Cfg} {bad : Panic → Prop} {rec : Rec} {l : Loc} {m : Nat}

/-! ### Calls of constructors -/

theorem assoc_of_named {x : Loc} (hx : x ∈ view l) (hn : x.node.named = true) : x.node.associable = true := by
  simp [Node.associable, (mem_view.1 hx).2, hn]

theorem Ctx.reachKid (C : Ctx root cm cfg bad rec l m) (hs : sane l.kind l.node.children = true) {x : Loc}
    (hx : x ∈ view l) (ha : x.node.associable = true) : Reach root x :=
  .kid C.reach hs (mem_view.1 hx).1 ha

theorem Ctx.kid (C : Ctx root cm cfg bad rec l m) (hs : sane l.kind l.node.children = true) {c : Cls} {x : Loc}
    (hx : x ∈ view l) (ha : x.node.associable = true) (hp : plainCls c = true) (hc : conf x.node (.cls c) = true)
    (hi : Body x) : W bad (rec c x) (fun p => Sx (items cm p) (full cm x)) := by
  refine C.call (.node (C.reachKid hs hx ha) hp hc hi) ?_
  have h1 := depth_view hx
  have h2 := rank_le c
  have h3 := C.size
  omega

/-- The atom is matched by nodes that have a bucket and are no declarations in the header of a `for` statement. -/
def bucketAtom (a : Atom) : Bool :=
  (a.named || (!a.kinds.isEmpty && a.kinds.all isAssociableUnnamedKind)) &&
    !(a.fields.contains (some "init") && a.kinds.contains "local_variable_declaration")

theorem SatL.body {a : Atom} {x : Loc} (h : SatL l a x) (ha : bucketAtom a = true) : Body x := by
  intro hk hf
  have h1 := h.fits
  simp only [bucketAtom, Bool.and_eq_true, Bool.not_eq_true'] at ha
  have h2 := ha.2
  rw [← hf, List.contains_iff_mem.2 h1.2.1, ← hk, show a.kinds.contains x.kind = true from List.contains_iff_mem.2 h1.2.2.1] at h2
  cases h2

theorem SatL.assoc {a : Atom} {x : Loc} (h : SatL l a x) (ha : bucketAtom a = true) : x.node.associable = true := by
  have hf := h.fits
  rw [bucketAtom, Bool.and_eq_true] at ha
  replace ha := ha.1
  simp only [Bool.or_eq_true, Bool.and_eq_true, List.all_eq_true] at ha
  simp only [Node.associable, h.noExtra, Bool.not_false, Bool.true_and, Bool.or_eq_true]
  rcases ha with ha | ha
  · exact Or.inl (by rw [hf.1, ha])
  · exact Or.inr (ha.2 _ hf.2.2.1)

theorem Ctx.sat (C : Ctx root cm cfg bad rec l m) (hs : sane l.kind l.node.children = true) {c : Cls} {x : Loc} {a : Atom}
    (hx : SatL l a x) (hnt : a.nt = some (.cls c)) (hb : bucketAtom a = true) (hp : plainCls c = true) :
    W bad (rec c x) (fun p => Sx (items cm p) (full cm x)) :=
  C.kid hs hx.2 (hx.assoc hb) hp (hx.1.2 _ hnt) (hx.body hb)

theorem W_kid {β : Type} (C : Ctx root cm cfg bad rec l m) (hs : sane l.kind l.node.children = true) {c : Cls} {x : Loc}
    {a : Atom} {K : Prog → R β} {Q : β → Prop} (hx : SatL l a x) (hnt : a.nt = some (.cls c)) (hb : bucketAtom a = true)
    (hp : plainCls c = true) (h : ∀ p, Sx (items cm p) (full cm x) → W bad (K p) Q) : W bad (rec c x >>= K) Q :=
  W_then (C.sat hs hx hnt hb hp) h

theorem W_none {β : Type} {f : Loc → R Prog} {K : Option Prog → R β} {Q : β → Prop} (h : W bad (K none) Q) :
    W bad (optR none f >>= K) Q := h

theorem W_opt {β : Type} (C : Ctx root cm cfg bad rec l m) (hs : sane l.kind l.node.children = true) {c : Cls}
    {o : Option Loc} {a : Atom} {K : Option Prog → R β} {Q : β → Prop} (hx : ∀ x, o = some x → SatL l a x)
    (hnt : a.nt = some (.cls c)) (hb : bucketAtom a = true) (hp : plainCls c = true)
    (h : ∀ p, Sx (itemss cm (opt p)) (ofull cm o) → p.isSome = o.isSome → W bad (K p) Q) :
    W bad (optR o (rec c) >>= K) Q := by
  cases o with
  | none => exact h none (by rw [itemss_opt_none]; exact sx_unit) rfl
  | some x =>
    have := C.sat hs (hx x rfl) hnt hb hp
    simp only [optR]
    cases hr : rec c x with
    | error e => rw [hr] at this; exact this
    | ok p => rw [hr] at this; exact h (some p) (by rw [itemss_opt_some]; exact this) rfl

theorem W_some {β : Type} (C : Ctx root cm cfg bad rec l m) (hs : sane l.kind l.node.children = true) {c : Cls}
    {x : Loc} {a : Atom} {K : Option Prog → R β} {Q : β → Prop} (hx : SatL l a x)
    (hnt : a.nt = some (.cls c)) (hb : bucketAtom a = true) (hp : plainCls c = true)
    (h : ∀ p, Sx (items cm p) (full cm x) → W bad (K (some p)) Q) :
    W bad (optR (some x) (rec c) >>= K) Q := by
  have := C.sat hs hx hnt hb hp
  simp only [optR]
  cases hr : rec c x with
  | error e => rw [hr] at this; exact this
  | ok p => rw [hr] at this; exact h p this

theorem W_mapR {f : Loc → R Prog} {xs : List Loc}
    (h : ∀ x ∈ xs, W bad (f x) (fun p => Sx (items cm p) (full cm x))) :
    W bad (mapR f xs) (fun ps => Sx (itemss cm ps) (xs.flatMap (full cm)) ∧ ps.length = xs.length) := by
  induction xs with
  | nil => exact ⟨by rw [itemss_nil]; exact sx_unit, rfl⟩
  | cons x xs ih =>
    have h1 := h x (by simp)
    have h2 := ih (fun y hy => h y (by simp [hy]))
    unfold mapR
    cases hr : f x with
    | error e => rw [hr] at h1; exact h1
    | ok p =>
      rw [hr] at h1
      cases hrs : mapR f xs with
      | error e => rw [hrs] at h2; exact h2
      | ok ps =>
        rw [hrs] at h2
        refine ⟨?_, by simp [h2.2]⟩
        rw [itemss_cons, List.flatMap_cons]
        exact sx_seq h1 h2.1

theorem W_map {β : Type} (C : Ctx root cm cfg bad rec l m) (hs : sane l.kind l.node.children = true) {c : Cls}
    {xs : List Loc} {a : Atom} {K : List Prog → R β} {Q : β → Prop} (hx : ∀ x ∈ xs, SatL l a x)
    (hnt : a.nt = some (.cls c)) (hb : bucketAtom a = true) (hp : plainCls c = true)
    (h : ∀ ps, Sx (itemss cm ps) (xs.flatMap (full cm)) → ps.length = xs.length → W bad (K ps) Q) :
    W bad (mapR (rec c) xs >>= K) Q :=
  W_then (W_mapR (fun x hxs => C.sat hs (hx x hxs) hnt hb hp)) (fun ps hps => h ps hps.1 hps.2)

theorem mapR_append {α β : Type} (f : α → R β) (xs ys : List α) :
    mapR f (xs ++ ys) = (mapR f xs >>= fun a => mapR f ys >>= fun b => .ok (a ++ b)) := by
  induction xs with
  | nil => simp only [List.nil_append, mapR]; cases mapR f ys <;> rfl
  | cons x xs ih =>
    simp only [List.cons_append, mapR]
    cases f x with
    | error e => rfl
    | ok b =>
      rw [ih]
      cases mapR f xs with
      | error e => rfl
      | ok bs => cases mapR f ys <;> rfl

theorem W_newline (C : Ctx root cm cfg bad rec l m) {x : Loc} (hr : Reach root x) :
    W bad (hasTrailingNewline cfg x) (fun b => b = tr cm x) := by
  obtain ⟨b, hb, _⟩ := hr.bucket C.good
  unfold hasTrailingNewline tr trailing
  have hg : (cm.get? x.node.id).bind (fun b => b.post.getLast?) = b.post.getLast? := by
    unfold getBucket at hb
    rw [show x.node.id = x.id from rfl]
    split at hb
    · rename_i h; cases hb; rw [h]; rfl
    · cases hb
  rw [C.cfgcm, hb, hg]
  dsimp only
  cases b.post.getLast? with
  | some c => exact rfl
  | none =>
    have hf : (x.rightSiblings.map Loc.node).find? (·.named) = x.nextNamedSibling.map Loc.node := by
      rw [Loc.nextNamedSibling, List.find?_map]; rfl
    rw [hf]
    cases x.nextNamedSibling with
    | none => exact rfl
    | some s =>
      dsimp only [Option.map_some]
      by_cases h0 : s.startRow = 0
      · rw [if_pos h0]
        have h0' : s.node.startRow = 0 := h0
        split
        · rename_i h; exact C.arith h
        · simp [W, h0']
      · rw [if_neg h0]
        have h0' : ¬ s.node.startRow = 0 := h0
        have : (s.node.startRow == 0) = false := by simpa using h0'
        rw [this]
        exact rfl

theorem W_member (C : Ctx root cm cfg bad rec l m) (hs : sane l.kind l.node.children = true) {c : Cls} {x : Loc} {a : Atom}
    (hx : SatL l a x) (hnt : a.nt = some (.cls c)) (hb : bucketAtom a = true) (hp : plainCls c = true) :
    W bad (bodyMember cfg rec c x) (fun p => Sx (items cm p.2) (full cm x) ∧ p.1 = tr cm x) := by
  have h1 := C.sat hs hx hnt hb hp
  have h2 := W_newline C (C.reachKid hs hx.2 (hx.assoc hb))
  unfold bodyMember
  cases hr : rec c x with
  | error e => rw [hr] at h1; exact h1
  | ok p =>
    rw [hr] at h1
    cases ht : hasTrailingNewline cfg x with
    | error e => rw [ht] at h2; exact h2
    | ok t => rw [ht] at h2; exact ⟨h1, h2⟩

theorem sx_sep (b : Bool) : Sx (sepR b) (sepC b) :=
  sx_exact ⟨Or.inl rfl, trivial⟩

theorem bodyR_cons {b : Bool} {q : Prog} {ps : List (Bool × Prog)} {x : Loc} {xs : List Loc} (h3 : Sx (items cm q) (full cm x))
    (h4 : b = tr cm x) (h : Sx (bodyR cm ps) (sepL cm xs)) (hl : ps.length = xs.length) :
    Sx (bodyR cm ((b, q) :: ps)) (sepL cm (x :: xs)) := by
  cases xs with
  | nil =>
    have : ps = [] := by simpa using hl
    subst this
    exact h3
  | cons x' xs =>
    cases ps with
    | nil => simp at hl
    | cons p ps =>
      rw [bodyR, sepL]
      · rw [← h4]
        exact sx_seq h3 (sx_seq (sx_sep b) h)
      · simp
      · simp

theorem W_members {β : Type} (C : Ctx root cm cfg bad rec l m) (hs : sane l.kind l.node.children = true) {c : Cls}
    {xs : List Loc} {a : Atom} {K : List (Bool × Prog) → R β} {Q : β → Prop} (hx : ∀ x ∈ xs, SatL l a x)
    (hnt : a.nt = some (.cls c)) (hb : bucketAtom a = true) (hp : plainCls c = true)
    (h : ∀ ps : List (Bool × Prog), Sx (bodyR cm ps) (sepL cm xs) → ps.length = xs.length →
      W bad (K ps) Q) : W bad (mapR (bodyMember cfg rec c) xs >>= K) Q := by
  suffices H : W bad (mapR (bodyMember cfg rec c) xs)
      (fun ps => Sx (bodyR cm ps) (sepL cm xs) ∧ ps.length = xs.length) from
    W_then H (fun ps hps => h ps hps.1 hps.2)
  clear h
  induction xs with
  | nil => exact ⟨sx_unit, rfl⟩
  | cons x xs ih =>
    have h1 := W_member C hs (hx x (by simp)) hnt hb hp
    have h2 := ih (fun y hy => hx y (by simp [hy]))
    unfold mapR
    cases hr : bodyMember cfg rec c x with
    | error e => rw [hr] at h1; exact h1
    | ok p =>
      rw [hr] at h1
      cases hrs : mapR (bodyMember cfg rec c) xs with
      | error e => rw [hrs] at h2; exact h2
      | ok ps =>
        rw [hrs] at h2
        exact ⟨bodyR_cons h1.1 h1.2 h2.1 h2.2, by simp [h2.2]⟩

/-! ### Accessors -/

section
variable {β : Type} {k : String} {sgs : List (Sg Loc)} {Q : β → Prop}

theorem W_assert (hv : At l k sgs) {K : Unit → R β} (h : W bad (K ()) Q) : W bad (assertCheck l k >>= K) Q := by
  unfold assertCheck
  rw [hv.kind, if_pos (by simp)]
  exact h

theorem W_cByN (hv : At l k sgs) {f : String} {x : Loc} {K : Loc → R β} (hf : findSg (nT f) sgs = some (some x))
    (h : W bad (K x) Q) : W bad (l.cByN f >>= K) Q := by
  rw [Loc.cByN, get_tryCByN hv.plain hv.view hf]; exact h

theorem W_cByK (hv : At l k sgs) {f : String} {x : Loc} {K : Loc → R β} (hk : isComment f = false)
    (hf : findSg (kT f) sgs = some (some x)) (h : W bad (K x) Q) : W bad (l.cByK f >>= K) Q := by
  rw [Loc.cByK, get_tryCByK hv.plain hv.view hk hf]; exact h

theorem W_firstC (hv : At l k sgs) {x : Loc} {K : Loc → R β}
    (hf : findSg mT sgs = some (some x)) (h : W bad (K x) Q) : W bad (l.firstC >>= K) Q := by
  rw [Loc.firstC, get_tryFirstC hv.view hf]; exact h

theorem W_cvalueByN (hv : At l k sgs) {f : String} {x : Loc} {K : Str → R β} (hf : findSg (nT f) sgs = some (some x))
    (h : W bad (K x.value) Q) : W bad (l.cvalueByN f >>= K) Q := by
  rw [Loc.cvalueByN, get_tryCByN hv.plain hv.view hf]; exact h

theorem W_cvalueByK (hv : At l k sgs) {f : String} {x : Loc} {K : Str → R β} (hk : isComment f = false)
    (hf : findSg (kT f) sgs = some (some x)) (h : W bad (K x.value) Q) : W bad (l.cvalueByK f >>= K) Q := by
  rw [Loc.cvalueByK, get_tryCByK hv.plain hv.view hk hf]; exact h

theorem W_csByN (hv : At l k sgs) {f : String} {xs : List Loc} {K : List Loc → R β}
    (hf : filterSg (nT f) sgs = some xs) (hne : xs ≠ []) (h : W bad (K xs) Q) : W bad (l.csByN f >>= K) Q := by
  rw [Loc.csByN, get_byField hv.plain hv.view hf]
  cases xs with
  | nil => exact absurd rfl hne
  | cons x xs => exact h

theorem W_csByK (hv : At l k sgs) {f : String} {xs : List Loc} {K : List Loc → R β} (hk : isComment f = false)
    (hf : filterSg (kT f) sgs = some xs) (hne : xs ≠ []) (h : W bad (K xs) Q) : W bad (l.csByK f >>= K) Q := by
  rw [Loc.csByK, get_tryCsByK hv.plain hv.view hk hf]
  cases xs with
  | nil => exact absurd rfl hne
  | cons x xs => exact h

theorem W_optK (hv : At l k sgs) {f : String} {o : Option Loc} {γ : Type} {g : Loc → R γ} {K : Option γ → R β}
    (hk : isComment f = false) (hf : findSg (kT f) sgs = some o) (h : W bad (optR o g >>= K) Q) :
    W bad (optR (l.tryCByK f) g >>= K) Q := by
  rw [get_tryCByK hv.plain hv.view hk hf]; exact h

theorem W_optN (hv : At l k sgs) {f : String} {o : Option Loc} {γ : Type} {g : Loc → R γ} {K : Option γ → R β}
    (hf : findSg (nT f) sgs = some o) (h : W bad (optR o g >>= K) Q) :
    W bad (optR (l.tryCByN f) g >>= K) Q := by
  rw [get_tryCByN hv.plain hv.view hf]; exact h

theorem W_mapK (hv : At l k sgs) {f : String} {xs : List Loc} {γ : Type} {g : Loc → R γ} {K : List γ → R β}
    (hk : isComment f = false) (hf : filterSg (kT f) sgs = some xs) (h : W bad (mapR g xs >>= K) Q) :
    W bad (mapR g (l.tryCsByK f) >>= K) Q := by
  rw [get_tryCsByK hv.plain hv.view hk hf]; exact h

theorem W_mapV (hv : At l k sgs) {xs : List Loc} {γ : Type} {g : Loc → R γ} {K : List γ → R β}
    (hf : filterSg mT sgs = some xs) (h : W bad (mapR g xs >>= K) Q) :
    W bad (mapR g l.childrenVec >>= K) Q := by
  rw [get_childrenVec hv.view hf]; exact h

end

/-! ### Contents -/

theorem leafCode_named {n : Node} (h : n.named = false) : ∀ e ∈ leafCode n, e.1 = true := by
  intro e he
  simp only [leafCode, List.mem_map] at he
  obtain ⟨c, _, rfl⟩ := he
  simp [h]

theorem leafCode_map (n : Node) : (leafCode n).map (·.2) = letters false n.text := by
  simp [leafCode, List.map_map, Function.comp_def]

/-- Printing a text. -/
theorem sx_txt {w : Str} {k : List (Bool × Letter)} (h : SameL (letters false w) k) : Sx (items cm (.txt w)) (inlC k) := by
  have : items cm (.txt w) = .ok ((codeItem w).map .inl, []) := by rw [items]
  rw [this]
  exact sx_exact (by rw [flatI_codeItem]; exact SameX.txt h)

/-- The comments of the bucket left out. -/
theorem sx_inside {x : Res2} {a k b : Cont} (h : Sx x k) (ha : codeC a = []) (hb : codeC b = []) : Sx x (a ++ k ++ b) :=
  sx_leave h ((List.sublist_append_right a k).trans (List.sublist_append_left _ b)) (by simp [ha, hb])

/-- A token printed as a text: its bucket, if it has one, may be left out. -/
theorem sx_token {x : Loc} {w : Str} (he : x.node.extra = false) (hn : x.node.named = false) (ht : tokenText x.node = true)
    (hw : foldL (letters false w) = foldL (letters false x.kind.toList)) : Sx (items cm (.txt w)) (cont cm x.node) := by
  simp only [tokenText, Bool.and_eq_true, List.isEmpty_iff, beq_iff_eq] at ht
  rw [cont_leaf cm he ht.1]
  have h : SameL (letters false w) (leafCode x.node) := by
    refine SameL.folded _ _ ?_ (leafCode_named hn)
    rw [leafCode_map, ht.2, hw]; rfl
  exact sx_inside (sx_txt h) (codeC_bcomIf _ _ _ _) (codeC_acomIf _ _ _ _)

/-- The letter case of a token does not matter. -/
theorem anchors_tok {x : Loc} {k : String} (h : SatL l (tok k) x) : anchors (codeC (cont cm x.node)) = 0 := by
  have hn : x.node.named = false := h.fits.1
  have he := h.noExtra
  have ht : tokenText x.node = true := by
    rcases h.fits.2.2.2 with h | h
    · cases h
    · exact h
  simp only [tokenText, Bool.and_eq_true, List.isEmpty_iff, beq_iff_eq] at ht
  rw [cont_leaf cm he ht.1, codeC_append, codeC_append, codeC_bcomIf, codeC_acomIf, codeC_inl]
  simpa using anchors_folded (leafCode_named hn)

theorem sx_tok {x : Loc} {k : String} {w : Str} (h : SatL l (tok k) x) (hw : foldL (letters false w) = foldL (letters false k.toList)) :
    Sx (items cm (.txt w)) (cont cm x.node) := by
  have hf := h.fits
  have hk : x.node.kind = k := by simpa [tok] using hf.2.2.1
  refine sx_token h.noExtra (by rw [hf.1]; rfl) ?_ (by rw [hw, ← hk]; rfl)
  rcases hf.2.2.2 with h | h
  · cases h
  · exact h

/-- A token under a field printed with its own text. -/
theorem sx_tokV {x : Loc} {f : String} {ks : List String} (h : SatL l (tokF f ks) x) :
    Sx (items cm (.txt x.value)) (cont cm x.node) := by
  have hf := h.fits
  have ht : tokenText x.node = true := by
    rcases hf.2.2.2 with h | h
    · cases h
    · exact h
  have ht' := ht
  simp only [tokenText, Bool.and_eq_true, List.isEmpty_iff, beq_iff_eq] at ht
  exact sx_token h.noExtra (by rw [hf.1]; rfl) ht' ht.2

/-- A token under a field printed as its kind. -/
theorem sx_tokK {x : Loc} {f : String} {ks : List String} (h : SatL l (tokF f ks) x)
    (_ : ks.all (fun k => ink k.toList == k.toList) = true) :
    Sx (items cm (t x.kind)) (cont cm x.node) := by
  have hf := h.fits
  have ht : tokenText x.node = true := by
    rcases hf.2.2.2 with h | h
    · cases h
    · exact h
  refine sx_token h.noExtra (by rw [hf.1]; rfl) ht rfl

/-- The content of several tokens printed as one text. -/
theorem cont_tok {x : Loc} {k : String} (h : SatL l (tok k) x) (hb : isAssociableUnnamedKind k = false) :
    ∃ c : List (Bool × Letter), cont cm x.node = inlC c ∧ (∀ e ∈ c, e.1 = true) ∧ foldL (c.map (·.2)) = foldL (letters false k.toList) := by
  have hf := h.fits
  have hk : x.node.kind = k := by simpa [tok] using hf.2.2.1
  have ht : tokenText x.node = true := by
    rcases hf.2.2.2 with h | h
    · cases h
    · exact h
  have hn : x.node.named = false := by rw [hf.1]; rfl
  simp only [tokenText, Bool.and_eq_true, List.isEmpty_iff, beq_iff_eq] at ht
  refine ⟨leafCode x.node, ?_, leafCode_named hn, ?_⟩
  · rw [cont_leaf cm h.noExtra ht.1]
    simp [Node.associable, hn, hk, hb]
  · rw [leafCode_map, ht.2, hk]

theorem foldL_append (a b : List Letter) : foldL (a ++ b) = foldL a ++ foldL b := List.map_append

theorem sx_tok2 {x y : Loc} {k k' : String} {w : Str} (h : SatL l (tok k) x) (h' : SatL l (tok k') y)
    (hb : isAssociableUnnamedKind k = false) (hb' : isAssociableUnnamedKind k' = false)
    (hw : foldL (letters false w) = foldL (letters false k.toList ++ letters false k'.toList)) :
    Sx (items cm (.txt w)) (cont cm x.node ++ cont cm y.node) := by
  obtain ⟨c, e, h1, h2⟩ := cont_tok (cm := cm) h hb
  obtain ⟨c', e', h1', h2'⟩ := cont_tok (cm := cm) h' hb'
  rw [e, e', ← inlC_append]
  refine sx_txt (SameL.folded _ _ ?_ ?_)
  · rw [List.map_append, foldL_append, h2, h2', hw, foldL_append]
  · intro e he
    rcases List.mem_append.1 he with he | he
    · exact h1 e he
    · exact h1' e he

theorem sx_tok3 {x y z : Loc} {k k' k'' : String} {w : Str} (h : SatL l (tok k) x) (h' : SatL l (tok k') y)
    (h'' : SatL l (tok k'') z) (hb : isAssociableUnnamedKind k = false) (hb' : isAssociableUnnamedKind k' = false)
    (hb'' : isAssociableUnnamedKind k'' = false) 
    (hw : foldL (letters false w) = foldL (letters false k.toList ++ (letters false k'.toList ++ letters false k''.toList))) :
    Sx (items cm (.txt w)) (cont cm x.node ++ (cont cm y.node ++ cont cm z.node)) := by
  obtain ⟨c, e, h1, h2⟩ := cont_tok (cm := cm) h hb
  obtain ⟨c', e', h1', h2'⟩ := cont_tok (cm := cm) h' hb'
  obtain ⟨c'', e'', h1'', h2''⟩ := cont_tok (cm := cm) h'' hb''
  rw [e, e', e'', ← inlC_append, ← inlC_append]
  refine sx_txt (SameL.folded _ _ ?_ ?_)
  · rw [List.map_append, List.map_append, foldL_append, foldL_append, h2, h2', h2'', hw, foldL_append, foldL_append]
  · intro e he
    rcases List.mem_append.1 he with he | he
    · exact h1 e he
    · rcases List.mem_append.1 he with he | he
      · exact h1' e he
      · exact h1'' e he

/-- Sequencing with the content in normal form. -/
theorem sx_seq2 {r s : Res2} {a b k : Cont} (h : Sx r (a ++ b)) (h' : Sx s k) : Sx (seqR r s) (a ++ (b ++ k)) := by
  rw [← List.append_assoc]; exact sx_seq h h'
theorem sx_seq3 {r s : Res2} {a b c k : Cont} (h : Sx r (a ++ (b ++ c))) (h' : Sx s k) :
    Sx (seqR r s) (a ++ (b ++ (c ++ k))) := by
  rw [← List.append_assoc b, ← List.append_assoc a]; exact sx_seq h h'
theorem sx_none {r : Res2} {k : Cont} (h : Sx r k) : Sx r (ofull cm none ++ k) := h
theorem sx_emptyList {r : Res2} {k : Cont} (h : Sx r k) : Sx r (([] : List Loc).flatMap (full cm) ++ k) := h
theorem sx_last {r : Res2} {k : Cont} (h : Sx r k) : Sx r (k ++ []) := by rwa [List.append_nil]

/-! ### The frame of a node -/

theorem full_eq {k : String} {sgs : List (Sg Loc)} (C : Ctx root cm cfg bad rec l m) (hv : At l k sgs) :
    full cm l = bcom cm l.kind l.id ++ inner cm l ++ acom cm l.kind l.id ++ pcont cm l := by
  have he : l.node.extra = false := by
    have := C.reach.assoc C.good
    simp only [Node.associable, Bool.and_eq_true, Bool.not_eq_true'] at this
    exact this.1
  rw [full, cont_eq cm he hv.text, if_pos (C.reach.assoc C.good), if_pos (C.reach.assoc C.good)]; rfl

theorem calm_of {k : String} {sgs : List (Sg Loc)} (hv : At l k sgs) (hb : braceKinds.contains k = false) : Calm l.node :=
  sane_calm hv.sane (by rw [hv.kind]; exact hb)

theorem inner_at {k : String} {sgs : List (Sg Loc)} (hv : At l k sgs) {K : Cont} (hf : fullB cm k sgs = some K) :
    inner cm l = K := inner_full hv.view (by rw [hv.kind]; exact hf)

theorem SatL.tok_named {s : String} {x : Loc} (h : SatL l (tok s) x) : x.node.named = false := h.fits.1

theorem SatL.tok_punct {s : String} {x : Loc} (h : SatL l (tok s) x) (hs : isPunctuationKind s = false) :
    isPunctuationKind x.kind = false := noPunct_sat h (by simp [noPunct, tok, hs])

theorem inner_brace {k : String} {a : Atom} {x1 x3 : Loc} {xs : List Loc}
    (hv : At l k [.one (tok "{") x1, .many a xs, .one (tok "}") x3]) (hk : bodyKinds.contains k = true)
    (h1 : SatL l (tok "{") x1) (h2 : ∀ x ∈ xs, SatL l a x) (h3 : SatL l (tok "}") x3) (hn : a.named = true)
    (hp : noPunct a = true) : inner cm l = cont cm x1.node ++ (sepL cm xs ++ (cont cm x3.node ++ [])) := by
  have hview : view l = x1 :: (xs ++ [x3]) := by rw [hv.view.1]; simp [locs, Sg.locs]
  have hnx := view_nexts l
  rw [hview] at hnx
  rw [inner_body cm l (by rw [hv.kind]; exact hk), hview, joinB, h1.tok_named, joinB_many cm xs [x3] hnx.2
    (fun x hx => ⟨by rw [(h2 x hx).fits.1, hn], noPunct_sat (h2 x hx) hp⟩)
    (fun y hy => by
      simp only [List.mem_cons, List.not_mem_nil, or_false] at hy
      subst hy
      exact ⟨h3.tok_named, h3.tok_punct (by decide)⟩),
    joinB_tail cm [x3] (fun y hy => by
      simp only [List.mem_cons, List.not_mem_nil, or_false] at hy
      subst hy
      exact h3.tok_named)]
  rfl

theorem inner_ctor {k : String} {a a' : Atom} {x1 x2 x4 : Loc} {xs : List Loc}
    (hv : At l k [.one (tok "{") x1, .one a' x2, .many a xs, .one (tok "}") x4]) (hk : bodyKinds.contains k = true)
    (h1 : SatL l (tok "{") x1) (h2 : SatL l a' x2) (h3 : ∀ x ∈ xs, SatL l a x) (h4 : SatL l (tok "}") x4) (hn : a.named = true)
    (hp : noPunct a = true) (hn' : a'.named = true) (hp' : noPunct a' = true) :
    inner cm l = cont cm x1.node ++ (sepL cm (x2 :: xs) ++ (cont cm x4.node ++ [])) := by
  have hview : view l = x1 :: ((x2 :: xs) ++ [x4]) := by rw [hv.view.1]; simp [locs, Sg.locs]
  have hnx := view_nexts l
  rw [hview] at hnx
  rw [inner_body cm l (by rw [hv.kind]; exact hk), hview, joinB, h1.tok_named, joinB_many cm (x2 :: xs) [x4] hnx.2
    (fun x hx => by
      rcases List.mem_cons.1 hx with rfl | hx
      · exact ⟨by rw [h2.fits.1, hn'], noPunct_sat h2 hp'⟩
      · exact ⟨by rw [(h3 x hx).fits.1, hn], noPunct_sat (h3 x hx) hp⟩)
    (fun y hy => by
      simp only [List.mem_cons, List.not_mem_nil, or_false] at hy
      subst hy
      exact ⟨h4.tok_named, h4.tok_punct (by decide)⟩),
    joinB_tail cm [x4] (fun y hy => by
      simp only [List.mem_cons, List.not_mem_nil, or_false] at hy
      subst hy
      exact h4.tok_named)]
  rfl

theorem inner_members {k : String} {a : Atom} {xs : List Loc} (hv : At l k [.many a xs]) (hk : bodyKinds.contains k = true)
    (h2 : ∀ x ∈ xs, SatL l a x) (hn : a.named = true) (hp : noPunct a = true) : inner cm l = sepL cm xs := by
  have hview : view l = xs ++ [] := by rw [hv.view.1]; simp [locs, Sg.locs]
  have hnx := view_nexts l
  rw [hview] at hnx
  rw [inner_body cm l (by rw [hv.kind]; exact hk), hview, joinB_many cm xs [] hnx
    (fun x hx => ⟨by rw [(h2 x hx).fits.1, hn], noPunct_sat (h2 x hx) hp⟩) (fun y hy => by cases hy)]
  exact List.append_nil _

theorem sx_in {k : String} {sgs : List (Sg Loc)} (hv : At l k sgs) {K : Cont} {r : Res2}
    (hf : fullB cm k sgs = some K) (h : Sx r K) : Sx r (inner cm l) := by
  rw [inner_at hv hf]; exact h

theorem sx_bwcp {k : String} {sgs : List (Sg Loc)} (C : Ctx root cm cfg bad rec l m) (hv : At l k sgs) {ms : List Prog}
    (hb : braceKinds.contains k = false) (hm : Sx (itemss cm ms) (inner cm l)) :
    Sx (items cm (bwcp l ms)) (full cm l) := by
  rw [full_eq C hv]
  obtain ⟨b, hb1, hb2⟩ := C.reach.bucket C.good
  exact sx_wrapped hb1 (C.reach.calm C.good (calm_of hv hb) hb1) hb2 _ hm (punct_opt C.good C.reach)

theorem sx_bwc {k : String} {sgs : List (Sg Loc)} (C : Ctx root cm cfg bad rec l m) (hv : At l k sgs) {ms : List Prog}
    (hb : braceKinds.contains k = false) (hq : quietKinds.contains k = true) (hm : Sx (itemss cm ms) (inner cm l)) :
    Sx (items cm (bwc l ms)) (full cm l) := by
  rw [full_eq C hv, C.reach.quiet cm (by rw [hv.kind]; exact hq), List.append_nil]
  obtain ⟨b, hb1, hb2⟩ := C.reach.bucket C.good
  exact sx_bare hb1 (C.reach.calm C.good (calm_of hv hb) hb1) hb2 _ hm

/-- A node whose bucket is not printed. -/
theorem sx_raw {k : String} {sgs : List (Sg Loc)} (C : Ctx root cm cfg bad rec l m) (hv : At l k sgs) {r : Res2}
    (hq : quietKinds.contains k = true) (hm : Sx r (inner cm l)) : Sx r (full cm l) := by
  rw [full_eq C hv, C.reach.quiet cm (by rw [hv.kind]; exact hq), List.append_nil]
  exact sx_inside hm (codeC_bcom _ _ _) (codeC_acom _ _ _)

end

end Afmt.Gram
