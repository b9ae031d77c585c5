import Verif.ShapeTac

/-!
# Constructors do not look beyond the member they are called for: tools

`Loc.graft q l` is the location `l` of a tree, seen as a location of a larger tree that has the first one at the place
`q`.  Constructors below a member give the same documents in both trees.
-/

namespace Afmt
namespace Solo
open Gram Prog Prog.New

/-- The location seen in the larger tree that continues upwards with `q`. -/
def graft (q : List Frame) (l : Loc) : Loc := ⟨l.node, l.path ++ q⟩

variable {q : List Frame} {m : Node} {cfg cfg' : Cfg} {rec rec' : Rec} {n : Loc}

theorem graft_id (l : Loc) : (graft q l).id = l.id := rfl
theorem graft_kind (l : Loc) : (graft q l).kind = l.kind := rfl
theorem graft_value (l : Loc) : (graft q l).value = l.value := rfl
theorem graft_node (l : Loc) : (graft q l).node = l.node := rfl

theorem loc_childrenGo (p : Loc) : ∀ (lefts rest : List Node), Loc.childrenGo (graft q p) lefts rest = (Loc.childrenGo p lefts rest).map (graft q)
  | _, [] => rfl
  | lefts, c :: rest => by
    rw [Loc.childrenGo, Loc.childrenGo, List.map_cons, loc_childrenGo p (c :: lefts) rest]
    rfl

theorem loc_children (l : Loc) : (graft q l).children = l.children.map (graft q) := loc_childrenGo l [] l.node.children

theorem loc_right (l : Loc) (h : l.path ≠ []) : (graft q l).rightSiblings = l.rightSiblings.map (graft q) := by
  obtain ⟨x, path⟩ := l
  cases path with
  | nil => exact absurd rfl h
  | cons f fs => exact loc_childrenGo ⟨f.parent, fs⟩ (x :: f.lefts) f.rights

theorem loc_parent (l : Loc) (h : l.path ≠ []) : (graft q l).parent = l.parent.map (graft q) := by
  obtain ⟨x, path⟩ := l
  cases path with
  | nil => exact absurd rfl h
  | cons f fs => rfl

theorem filter_graft {p : Loc → Bool} (h : ∀ l, p (graft q l) = p l) (ls : List Loc) : (ls.map (graft q)).filter p = (ls.filter p).map (graft q) := by
  rw [List.filter_map]
  congr 1
  exact List.filter_congr (fun l _ => h l)
theorem find_graft {p : Loc → Bool} (h : ∀ l, p (graft q l) = p l) (ls : List Loc) : (ls.map (graft q)).find? p = (ls.find? p).map (graft q) := by
  rw [List.find?_map]
  congr 2
  funext l
  exact h l

theorem loc_namedChildren (l : Loc) : (graft q l).namedChildren = l.namedChildren.map (graft q) := by
  rw [Loc.namedChildren, loc_children, filter_graft (fun _ => rfl), Loc.namedChildren]
theorem loc_childrenVec (l : Loc) : (graft q l).childrenVec = l.childrenVec.map (graft q) := by
  rw [Loc.childrenVec, loc_namedChildren, filter_graft (fun _ => rfl), Loc.childrenVec]
theorem loc_tryCByK (l : Loc) (k : String) : (graft q l).tryCByK k = (l.tryCByK k).map (graft q) := by
  rw [Loc.tryCByK, loc_namedChildren, find_graft (fun _ => rfl), Loc.tryCByK]
theorem loc_tryCsByK (l : Loc) (k : String) : (graft q l).tryCsByK k = (l.tryCsByK k).map (graft q) := by
  rw [Loc.tryCsByK, loc_namedChildren, filter_graft (fun _ => rfl), Loc.tryCsByK]
theorem loc_tryCByN (l : Loc) (k : String) : (graft q l).tryCByN k = (l.tryCByN k).map (graft q) := by
  rw [Loc.tryCByN, loc_children, find_graft (fun _ => rfl), Loc.tryCByN]
theorem loc_tryFirstC (l : Loc) : (graft q l).tryFirstC = l.tryFirstC.map (graft q) := by
  rw [Loc.tryFirstC, loc_namedChildren, find_graft (fun _ => rfl), Loc.tryFirstC]
theorem loc_cByK (l : Loc) (k : String) : (graft q l).cByK k = (l.cByK k).map (graft q) := by
  rw [Loc.cByK, loc_tryCByK, Loc.cByK]; cases l.tryCByK k <;> rfl
theorem loc_cByN (l : Loc) (k : String) : (graft q l).cByN k = (l.cByN k).map (graft q) := by
  rw [Loc.cByN, loc_tryCByN, Loc.cByN]; cases l.tryCByN k <;> rfl
theorem loc_firstC (l : Loc) : (graft q l).firstC = l.firstC.map (graft q) := by
  rw [Loc.firstC, loc_tryFirstC, Loc.firstC]; cases l.tryFirstC <;> rfl
theorem cvalueByN (l : Loc) (k : String) : (graft q l).cvalueByN k = l.cvalueByN k := by
  rw [Loc.cvalueByN, loc_tryCByN, Loc.cvalueByN]; cases l.tryCByN k <;> rfl
theorem cvalueByK (l : Loc) (k : String) : (graft q l).cvalueByK k = l.cvalueByK k := by
  rw [Loc.cvalueByK, loc_tryCByK, Loc.cvalueByK]; cases l.tryCByK k <;> rfl
theorem loc_csByK (l : Loc) (k : String) : (graft q l).csByK k = (l.csByK k).map (List.map (graft q)) := by
  rw [Loc.csByK, loc_tryCsByK, Loc.csByK]; cases l.tryCsByK k <;> rfl
theorem loc_csByN (l : Loc) (k : String) : (graft q l).csByN k = (l.csByN k).map (List.map (graft q)) := by
  have : (graft q l).children.filter (fun c => c.node.field == some k) = (l.children.filter (fun c => c.node.field == some k)).map (graft q) := by
    rw [loc_children, filter_graft (fun _ => rfl)]
  rw [Loc.csByN, this, Loc.csByN]; cases l.children.filter (fun c => c.node.field == some k) <;> rfl
theorem loc_nextNamed (l : Loc) (h : l.path ≠ []) : (graft q l).nextNamed = l.nextNamed.map (graft q) := by
  rw [Loc.nextNamed, loc_right l h, find_graft (fun _ => rfl), Loc.nextNamed]
  cases l.rightSiblings.find? (fun c => c.named && !c.extra) <;> rfl
theorem loc_nextNamedSibling (l : Loc) (h : l.path ≠ []) : (graft q l).nextNamedSibling = l.nextNamedSibling.map (graft q) := by
  rw [Loc.nextNamedSibling, loc_right l h, find_graft (fun _ => rfl), Loc.nextNamedSibling]

theorem assertCheck_graft (l : Loc) (k : String) : assertCheck (graft q l) k = assertCheck l k := rfl

theorem punc_search (ls : List Loc) : Punc.search (ls.map (graft q)) = Punc.search ls := by
  induction ls with
  | nil => rfl
  | cons l ls ih =>
    rw [List.map_cons, Punc.search, Punc.search, ih]
    rfl
theorem punc_from (l : Loc) (h : l.path ≠ []) : Punc.from (graft q l) = Punc.from l := by
  rw [Punc.from, loc_right l h, punc_search, Punc.from]
theorem punc_fromInner (l : Loc) : Punc.fromInner (graft q l) = Punc.fromInner l := by
  rw [Punc.fromInner, loc_children, find_graft (fun _ => rfl), Punc.fromInner, Option.map_map]
  rfl

/-! ### Locations below the member -/

/-- A proper location below the member. -/
def Dn (m : Node) (l : Loc) : Prop := In m l ∧ l.path ≠ []

/-- A location of the member for which the punctuation that follows is the same in both trees. -/
def Ok (m : Node) (q : List Frame) (l : Loc) : Prop := In m l ∧ Punc.from (graft q l) = Punc.from l

theorem Dn.ok {l : Loc} (h : Dn m l) : Ok m q l := ⟨h.1, punc_from l h.2⟩

theorem path_childrenGo (p : Loc) : ∀ (lefts rest : List Node), ∀ c ∈ Loc.childrenGo p lefts rest, c.path ≠ []
  | _, [], c, h => nomatch h
  | lefts, x :: rest, c, h => by
    rw [Loc.childrenGo] at h
    rcases List.mem_cons.1 h with rfl | h
    · simp
    · exact path_childrenGo p _ rest c h

theorem path_child {l c : Loc} (h : c ∈ l.children) : c.path ≠ [] := path_childrenGo l _ _ c h
theorem dn_child {l c : Loc} (h : In m l) (hc : c ∈ l.children) : Dn m c := ⟨.child h hc, path_child hc⟩

theorem dn_named {l c : Loc} (h : In m l) (hc : c ∈ l.namedChildren) : Dn m c := dn_child h (List.mem_filter.mp hc).1
theorem dn_vec {l c : Loc} (h : In m l) (hc : c ∈ l.childrenVec) : Dn m c := dn_named h (List.mem_filter.mp hc).1
theorem dn_tryCByK {l c : Loc} {k : String} (h : In m l) (hc : l.tryCByK k = some c) : Dn m c := dn_named h (List.mem_of_find?_eq_some hc)
theorem dn_tryCsByK {l c : Loc} {k : String} (h : In m l) (hc : c ∈ l.tryCsByK k) : Dn m c := dn_named h (List.mem_filter.mp hc).1
theorem dn_tryCByN {l c : Loc} {k : String} (h : In m l) (hc : l.tryCByN k = some c) : Dn m c := dn_child h (List.mem_of_find?_eq_some hc)
theorem dn_tryFirstC {l c : Loc} (h : In m l) (hc : l.tryFirstC = some c) : Dn m c := dn_named h (List.mem_of_find?_eq_some hc)
theorem dn_cByK {l c : Loc} {k : String} (h : In m l) (hc : l.cByK k = .ok c) : Dn m c := dn_tryCByK h (try_of_cByK hc)
theorem dn_cByN {l c : Loc} {k : String} (h : In m l) (hc : l.cByN k = .ok c) : Dn m c := dn_tryCByN h (try_of_cByN hc)
theorem dn_firstC {l c : Loc} (h : In m l) (hc : l.firstC = .ok c) : Dn m c := dn_tryFirstC h (try_of_firstC hc)
theorem dn_csByK {l c : Loc} {cs : List Loc} {k : String} (h : In m l) (hcs : l.csByK k = .ok cs) (hc : c ∈ cs) : Dn m c :=
  dn_tryCsByK h (try_of_csByK hcs ▸ hc)
theorem dn_csByN {l c : Loc} {cs : List Loc} {k : String} (h : In m l) (hcs : l.csByN k = .ok cs) (hc : c ∈ cs) : Dn m c := by
  unfold Loc.csByN at hcs
  split at hcs
  · cases hcs
  · rw [Except.ok.injEq] at hcs
    subst hcs
    exact dn_child h (List.mem_filter.mp hc).1
theorem dn_right {l s : Loc} (h : Dn m l) (hs : s ∈ l.rightSiblings) : Dn m s := by
  refine ⟨in_right h.1 hs, ?_⟩
  obtain ⟨x, path⟩ := l
  cases path with
  | nil => exact absurd rfl h.2
  | cons f fs => exact path_childrenGo _ _ _ _ hs
theorem dn_nextNamed {l c : Loc} (h : Dn m l) (hc : l.nextNamed = .ok c) : Dn m c := by
  unfold Loc.nextNamed at hc
  split at hc
  · rename_i x hx
    rw [Except.ok.injEq] at hc
    exact hc ▸ dn_right h (List.mem_of_find?_eq_some hx)
  · cases hc

/-- The setting: a member, a place in a larger tree, and constructors to call. -/
structure E (m : Node) (q : List Frame) (cfg cfg' : Cfg) (rec rec' : Rec) : Prop where
  call : ∀ c l, Dn m l → rec' c (graft q l) = rec c l
  trail : ∀ l, Dn m l → hasTrailingNewline cfg' (graft q l) = hasTrailingNewline cfg l

theorem bindE {α β γ : Type} {x : R α} {x' : R β} {f : α → β} {g : α → R γ} {g' : β → R γ} (hx : x' = x.map f)
    (hg : ∀ a, x = .ok a → g' (f a) = g a) : (x' >>= g') = (x >>= g) := by
  subst hx
  cases x with
  | error e => rfl
  | ok a => exact hg a rfl

theorem bindS {α γ : Type} {x x' : R α} {g g' : α → R γ} (hx : x' = x) (hg : ∀ a, x = .ok a → g' a = g a) : (x' >>= g') = (x >>= g) := by
  subst hx
  cases x' with
  | error e => rfl
  | ok a => exact hg a rfl

theorem optE {β : Type} {f f' : Loc → R β} {o : Option Loc} (h : ∀ l, o = some l → f' (graft q l) = f l) : optR (o.map (graft q)) f' = optR o f := by
  cases o with
  | none => rfl
  | some l => simp only [Option.map_some, optR, h l rfl]

theorem mapE {β : Type} {f f' : Loc → R β} : ∀ {ls : List Loc}, (∀ l ∈ ls, f' (graft q l) = f l) → mapR f' (ls.map (graft q)) = mapR f ls
  | [], _ => rfl
  | l :: ls, h => by
    rw [List.map_cons, mapR, mapR, h l (.head _), mapE (fun x hx => h x (.tail _ hx))]

theorem dispatchE (h : ∀ c, rec' c (graft q n) = rec c n) (tbl : List (String × Cls)) : dispatch rec' tbl (graft q n) = dispatch rec tbl n := by
  unfold Prog.New.dispatch
  simp only [graft_kind, h]

theorem E.dispatch (e : E m q cfg cfg' rec rec') {l : Loc} (hl : Dn m l) (tbl : List (String × Cls)) :
    Prog.New.dispatch rec' tbl (graft q l) = Prog.New.dispatch rec tbl l := dispatchE (fun c => e.call c l hl) tbl

theorem E.member (e : E m q cfg cfg' rec rec') {l : Loc} (hl : Dn m l) (c : Cls) :
    bodyMember cfg' rec' c (graft q l) = bodyMember cfg rec c l := by
  unfold Prog.New.bodyMember
  rw [e.call c l hl, e.trail l hl]

theorem E.optK (e : E m q cfg cfg' rec rec') (hn : In m n) (c : Cls) (k : String) : optR ((graft q n).tryCByK k) (rec' c) = optR (n.tryCByK k) (rec c) := by
  rw [loc_tryCByK]; exact optE (fun l hl => e.call c l (dn_tryCByK hn hl))
theorem E.optN (e : E m q cfg cfg' rec rec') (hn : In m n) (c : Cls) (k : String) : optR ((graft q n).tryCByN k) (rec' c) = optR (n.tryCByN k) (rec c) := by
  rw [loc_tryCByN]; exact optE (fun l hl => e.call c l (dn_tryCByN hn hl))
theorem E.optF (e : E m q cfg cfg' rec rec') (hn : In m n) (c : Cls) : optR ((graft q n).tryFirstC) (rec' c) = optR n.tryFirstC (rec c) := by
  rw [loc_tryFirstC]; exact optE (fun l hl => e.call c l (dn_tryFirstC hn hl))
theorem E.mapV (e : E m q cfg cfg' rec rec') (hn : In m n) (c : Cls) : mapR (rec' c) (graft q n).childrenVec = mapR (rec c) n.childrenVec := by
  rw [loc_childrenVec]; exact mapE (fun l hl => e.call c l (dn_vec hn hl))
theorem E.mapK (e : E m q cfg cfg' rec rec') (hn : In m n) (c : Cls) (k : String) : mapR (rec' c) ((graft q n).tryCsByK k) = mapR (rec c) (n.tryCsByK k) := by
  rw [loc_tryCsByK]; exact mapE (fun l hl => e.call c l (dn_tryCsByK hn hl))
theorem E.mapL (e : E m q cfg cfg' rec rec') {ls : List Loc} (hl : ∀ l, l ∈ ls → Dn m l) (c : Cls) : mapR (rec' c) (ls.map (graft q)) = mapR (rec c) ls :=
  mapE (fun l h => e.call c l (hl l h))
theorem E.members (e : E m q cfg cfg' rec rec') (hn : In m n) (c : Cls) :
    mapR (bodyMember cfg' rec' c) (graft q n).childrenVec = mapR (bodyMember cfg rec c) n.childrenVec := by
  rw [loc_childrenVec]; exact mapE (fun l hl => e.member (dn_vec hn hl) c)

theorem chaining_graft (l : Loc) (h : l.path ≠ []) : buildChainingContext (graft q l) = buildChainingContext l := by
  rw [buildChainingContext, loc_parent l h, loc_tryCByN, buildChainingContext]
  cases l.parent with
  | none => rfl
  | some p => cases l.tryCByN "object" <;> rfl

theorem iteE {α : Type} {c : Prop} [Decidable c] {a a' b b' : α} (h1 : c → a' = a) (h2 : ¬c → b' = b) : (if c then a' else b') = (if c then a else b) := by
  split
  · exact h1 ‹_›
  · exact h2 ‹_›

theorem okE {α : Type} {a b : α} (h : a = b) : (Except.ok a : R α) = .ok b := by rw [h]

theorem bwcp_graft (h : Ok m q n) (ms : List Prog) : bwcp (graft q n) ms = bwcp n ms := by
  rw [bwcp, h.2, bwcp]; rfl
theorem bwc_graft (ms : List Prog) : bwc (graft q n) ms = bwc n ms := rfl

/-- The location lies in the member. -/
macro "inn" : tactic => `(tactic| first | exact And.left (by assumption : Dn _ _) | exact And.left (by assumption : Ok _ _ _) | assumption)
/-- The location lies properly below the member. -/
macro "pth" : tactic => `(tactic| exact And.right (by assumption : Dn _ _))

set_option hygiene false in
/-- One step of a constructor. -/
macro "gs" : tactic => `(tactic| first
  | (refine bindS (assertCheck_graft _ _) ?_; intro _ _)
  | (refine bindE (loc_cByN _ _) ?_; intro _ hc; have := dn_cByN (by inn) hc)
  | (refine bindE (loc_cByK _ _) ?_; intro _ hc; have := dn_cByK (by inn) hc)
  | (refine bindE (loc_firstC _) ?_; intro _ hc; have := dn_firstC (by inn) hc)
  | (refine bindE (loc_nextNamed _ (by pth)) ?_; intro _ hc; have := dn_nextNamed (by assumption) hc)
  | (refine bindE (loc_csByK _ _) ?_; intro _ hcs; have := fun c => dn_csByK (c := c) (by inn) hcs)
  | (refine bindE (loc_csByN _ _) ?_; intro _ hcs; have := fun c => dn_csByN (c := c) (by inn) hcs)
  | (refine bindS (cvalueByN _ _) ?_; intro _ _)
  | (refine bindS (cvalueByK _ _) ?_; intro _ _)
  | (refine bindS (e.call _ _ (by assumption)) ?_; intro _ _)
  | (refine bindS (e.optK (by inn) _ _) ?_; intro _ _)
  | (refine bindS (e.optN (by inn) _ _) ?_; intro _ _)
  | (refine bindS (e.optF (by inn) _) ?_; intro _ _)
  | (refine bindS (e.mapV (by inn) _) ?_; intro _ _)
  | (refine bindS (e.mapK (by inn) _ _) ?_; intro _ _)
  | (refine bindS (e.mapL (by assumption) _) ?_; intro _ _)
  | (refine bindS (e.members (by inn) _) ?_; intro _ _)
  | (refine bindS (e.dispatch (by assumption) _) ?_; intro _ _)
  | (refine bindS (chaining_graft _ (by pth)) ?_; intro _ _)
  | exact e.dispatch (by assumption) _
  | exact e.call _ _ (by assumption)
  | (refine iteE (fun _ => ?_) (fun _ => ?_)))

set_option hygiene false in
/-- The result of a constructor. -/
macro "gf" : tactic => `(tactic| first
  | rfl
  | (refine okE ?_; rw [bwcp_graft hk]; done)
  | (refine okE ?_; rw [bwcp_graft hk]; rfl)
  | (refine okE ?_; rw [bwcp_graft hk]; simp only [loc_children, loc_childrenVec, loc_tryCByN, loc_tryCByK, loc_tryFirstC, loc_namedChildren, loc_tryCsByK, Option.isSome_map, Option.isNone_map, List.isEmpty_map, graft_kind, graft_value, graft_id, punc_fromInner]; done)
  | (refine okE ?_; simp only [loc_children, loc_childrenVec, loc_tryCByN, loc_tryCByK, loc_tryFirstC, loc_namedChildren, loc_tryCsByK, Option.isSome_map, Option.isNone_map, List.isEmpty_map, graft_kind, graft_value, graft_id, punc_fromInner]; done))

set_option hygiene false in
/-- Cases on whether there is a child of the field. -/
macro "gcN " s:term : tactic => `(tactic| (simp only [loc_tryCByN]; cases hN : Loc.tryCByN n $s <;> simp only [Option.map_some, Option.map_none] <;>
  try have := dn_tryCByN (by inn) hN))
set_option hygiene false in
/-- Cases on whether there is a child of the kind. -/
macro "gcK " s:term : tactic => `(tactic| (simp only [loc_tryCByK]; cases hK : Loc.tryCByK n $s <;> simp only [Option.map_some, Option.map_none] <;>
  try have := dn_tryCByK (by inn) hK))

end Solo
end Afmt
