import Verif.Gram.C0

/-!
# The printed content of nodes: bodies in braces, statements and expressions with frames of their own
-/

namespace Afmt.Gram
open Prog New
set_option maxRecDepth 10000
section
variable {root : Node} {cm : CMap} {cfg : Cfg} {bad : Panic → Prop} {rec : Rec} {l : Loc} {m : Nat}

/-- No child of the node can own a comment. -/
def Hollow (l : Loc) : Prop := ∀ c ∈ l.node.children, c.associable = false

theorem hollow_nil (h : Hollow l) {a : Atom} {xs : List Loc} (hx : ∀ x ∈ xs, SatL l a x) (hb : bucketAtom a = true) : xs = [] := by
  cases xs with
  | nil => rfl
  | cons x xs =>
    have hx := hx x (by simp)
    have := h _ (mem_children_node (mem_view.1 hx.2).1)
    rw [hx.assoc hb] at this
    cases this

/-- Bodies in braces. -/
theorem sx_brace {k : String} {sgs : List (Sg Loc)} (C : Ctx root cm cfg bad rec l m) (hv : At l k sgs)
    (hq : quietKinds.contains k = true) {x1 x3 : Loc} (h1 : SatL l (tok "{") x1) (h3 : SatL l (tok "}") x3) {N : Prog} {M : Res2}
    (hN : items cm N = seqR M (items cm (.post l.id)) ∨ items cm N = M) (hM : Sx M (inner cm l))
    (he : Hollow l → inner cm l = cont cm x1.node ++ (cont cm x3.node ++ [])) :
    Sx (items cm (.concat [.pre l.id, .ifDangling l.id (danglingBracket l.id) N])) (full cm l) := by
  rw [full_eq C hv, C.reach.quiet cm (by rw [hv.kind]; exact hq), List.append_nil]
  obtain ⟨b, hb1, hb2⟩ := C.reach.bucket C.good
  have hcalm := fun h => C.reach.calm C.good h hb1
  by_cases hd : b.dangling = []
  · simp only [items_concat, itemss_cons, itemss_nil, items_calm hb1 hd, seqR_unit_right, sx_pre hb1]
    rw [bcom_eq hb2, acom_eq hb2, hd, comC_nil, List.append_nil, List.append_assoc]
    rcases hN with hN | hN
    · rw [hN, sx_post hb1]
      exact sx_seq (sx_comments _ b.pre b.pre) (sx_seq hM (sx_comments _ b.post b.post))
    · rw [hN]
      refine sx_leave (sx_seq (sx_comments (preHold l.kind) b.pre b.pre) hM) ?_ ?_
      · exact (List.Sublist.refl _).append (List.sublist_append_left _ _)
      · simp
  · have hH : Hollow l := by
      intro c hc
      cases ha : c.associable with
      | false => rfl
      | true => exact absurd (hcalm (Or.inr ⟨c, hc, ha⟩)) hd
    rw [he hH]
    have hdg : items cm (.ifDangling l.id (danglingBracket l.id) N) = seqR (items cm (t "{")) (seqR (items cm (.dangling l.id)) (items cm (t "}"))) := by
      have hp : ∀ p q, items cm (.ifDangling l.id p q) = items cm p := by
        intro p q; rw [items, hb1]; simp [hd]
      rw [hp, danglingBracket]
      flat
      simp only [seqR_unit_right]
    have hdd : items cm (.dangling l.id) = .ok ((commentItems b.dangling).map .inl, b.dangling) := by
      rw [items, hb1]; simp [hd]
    simp only [items_concat, itemss_cons, itemss_nil, seqR_unit_right, sx_pre hb1, hdg, hdd]
    rw [bcom_eq hb2, acom_eq hb2]
    refine sx_weaken (sx_seq (sx_comments (preHold l.kind) b.pre b.pre) (sx_seq (sx_tok h1 (by decide))
      (sx_seq (sx_comments .loose b.dangling b.dangling) (sx_tok h3 (by decide))))) ?_ ?_ ?_
    · simp
    · have z1 := anchors_tok (cm := cm) h1
      have z3 := anchors_tok (cm := cm) h3
      simp only [spots_append, spots_com, codeC_append, codeC_com, anchors_append, anchors_nil, z1, z3, Nat.add_zero,
        List.append_nil, spots_nil]
      refine ⟨b.post.map (fun c => ((postHold l.kind).spot 0, c)), ?_⟩
      rw [List.perm_iff_count]
      intro a
      simp only [List.count_append]
      omega
    · simp only [firmly_append, firmly_com, firmly_nil, List.append_nil, reduceCtorEq, if_false, List.nil_append]
      rw [List.append_assoc]
      exact (List.Sublist.refl _).append (List.sublist_append_left _ _)

/-- Bodies with members. -/
theorem sx_bracketBody {k : String} {a : Atom} {x1 x3 : Loc} {xs : List Loc} (C : Ctx root cm cfg bad rec l m)
    (hv : At l k [.one (tok "{") x1, .many a xs, .one (tok "}") x3]) (hq : quietKinds.contains k = true)
    (hk : bodyKinds.contains k = true)
    (h1 : SatL l (tok "{") x1) (h2 : ∀ x ∈ xs, SatL l a x) (h3 : SatL l (tok "}") x3) (hb : bucketAtom a = true)
    (hn : a.named = true) (hp : noPunct a = true)
    {ms : List (Bool × Prog)} (hm : Sx (bodyR cm ms) (sepL cm xs)) :
    Sx (items cm (bracketBody l ms)) (full cm l) := by
  have hi := inner_brace (cm := cm) hv hk h1 h2 h3 hn hp
  refine sx_brace C hv hq h1 h3 (M := items cm (surroundBody ms)) (Or.inl ?_) ?_ ?_
  · simp only [items_concat, itemss_cons, itemss_nil, seqR_unit_right]
  · rw [hi]
    flat
    repeat' es1
  · intro hH
    rw [hi, hollow_nil hH h2 hb]
    rfl

theorem classBody_sx (C : Ctx root cm cfg bad rec l m) (h : conf l.node (.cls .classBody) = true) :
    W bad (New.classBody cfg rec l) (fun p => Sx (items cm p) (full cm l)) := by
  obtain ⟨x1, h1, x2, h2, x3, h3, hv⟩ := cls_at h rfl rfl rfl
  nrm
  unfold New.classBody
  repeat' stp
  exact sx_bracketBody C hv rfl rfl h1 h2 h3 rfl rfl rfl (by assumption)

theorem block_sx (C : Ctx root cm cfg bad rec l m) (h : conf l.node (.cls .block) = true) :
    W bad (New.block cfg rec l) (fun p => Sx (items cm p) (full cm l)) := by
  obtain ⟨x1, h1, x2, h2, x3, h3, hv⟩ := cls_at h rfl rfl rfl
  nrm
  unfold New.block
  repeat' stp
  exact sx_bracketBody C hv rfl rfl h1 h2 h3 rfl rfl rfl (by assumption)

theorem interfaceBody_sx (C : Ctx root cm cfg bad rec l m) (h : conf l.node (.cls .interfaceBody) = true) :
    W bad (New.interfaceBody cfg rec l) (fun p => Sx (items cm p) (full cm l)) := by
  obtain ⟨x1, h1, x2, h2, x3, h3, hv⟩ := cls_at h rfl rfl rfl
  nrm
  unfold New.interfaceBody
  repeat' stp
  exact sx_bracketBody C hv rfl rfl h1 h2 h3 rfl rfl rfl (by assumption)

theorem modifiers_sx (C : Ctx root cm cfg bad rec l m) (h : conf l.node (.cls .modifiers) = true) :
    W bad (New.modifiers rec l) (fun p => Sx (items cm p) (full cm l)) := by
  obtain ⟨x1, h1, x2, h2, hv⟩ := cls_at h rfl rfl rfl
  nrm
  unfold New.modifiers
  repeat' stp
  refine sx_bwc C hv rfl rfl ?_
  inn

theorem annotation_sx (C : Ctx root cm cfg bad rec l m) (h : conf l.node (.cls .annotation) = true) :
    W bad (New.annotation rec l) (fun p => Sx (items cm p) (full cm l)) := by
  obtain ⟨x1, h1, x2, h2, x3, h3, hv⟩ := cls_at h rfl rfl rfl
  nrm
  unfold New.annotation
  repeat' stp
  rw [items_concat, itemss_cons, itemss_one, items_nl, seqR_unit_right]
  fin

theorem named_ne {sgs : List (Sg Loc)} {r : List Loc} (hv : View l sgs) (h : filterSg mT sgs = some r) (hr : r ≠ []) :
    l.namedChildren.isEmpty = false := by
  cases he : l.namedChildren with
  | cons _ _ => rfl
  | nil =>
    have := get_childrenVec hv h
    rw [Loc.childrenVec, he] at this
    exact absurd this.symm hr

theorem annotationArgumentList_sx (C : Ctx root cm cfg bad rec l m) (h : conf l.node (.cls .annotationArgumentList) = true) :
    W bad (New.annotationArgumentList rec l) (fun p => Sx (items cm p) (full cm l)) := by
  rcases cls_at h rfl rfl rfl with ⟨x1, h1, x2, h2, x3, h3, hv⟩ | ⟨x1, h1, x2, y2, h2, x3, h3, hv⟩ | ⟨x1, h1, x2, h2, x3, h3, x4, h4, hv⟩
  · nrm
    unfold New.annotationArgumentList
    rw [named_ne hv.view rfl (List.cons_ne_nil _ _), get_tryCsByK hv.plain hv.view rfl rfl]
    rw [if_neg (by decide), if_pos (show ([] : List Loc).isEmpty = true from rfl)]
    repeat' stp
    refine sx_raw C hv rfl ?_
    inn
  · nrm
    unfold New.annotationArgumentList
    have he : x2.isEmpty = false := by
      cases x2 with
      | nil => exact absurd rfl h2.ne
      | cons => rfl
    rw [named_ne hv.view rfl h2.ne, get_tryCsByK hv.plain hv.view rfl rfl, if_neg (by decide), he, if_neg (by decide)]
    repeat' stp
    refine sx_raw C hv rfl ?_
    inn
  · nrm
    unfold New.annotationArgumentList
    rw [named_ne hv.view rfl (List.cons_ne_nil _ _), get_tryCsByK hv.plain hv.view rfl rfl]
    rw [if_neg (by decide), if_neg (by simp)]
    repeat' stp
    refine sx_raw C hv rfl ?_
    inn

/-- Optional segments that are present or absent. -/
def strip : List (Sg Loc) → List (Sg Loc)
  | [] => []
  | .opt _ none :: t => strip t
  | .opt a (some x) :: t => .one a x :: strip t
  | s :: t => s :: strip t

theorem strip_locs : ∀ sgs : List (Sg Loc), locs (strip sgs) = locs sgs
  | [] => rfl
  | .opt _ none :: t => by rw [strip, strip_locs t]; rfl
  | .opt a (some x) :: t => by rw [strip, locs, strip_locs t]; rfl
  | .one .. :: t => by show _ ++ locs (strip t) = _ ++ locs t; rw [strip_locs t]
  | .many .. :: t => by show _ ++ locs (strip t) = _ ++ locs t; rw [strip_locs t]
  | .sep .. :: t => by show _ ++ locs (strip t) = _ ++ locs t; rw [strip_locs t]
  | .cond .. :: t => by show _ ++ locs (strip t) = _ ++ locs t; rw [strip_locs t]

theorem strip_wf {P : Atom → Loc → Prop} : ∀ {sgs : List (Sg Loc)}, (∀ sg ∈ sgs, sg.WF P) → ∀ sg ∈ strip sgs, sg.WF P
  | [], _, _, h => by cases h
  | .opt _ none :: t, h, sg, hs => strip_wf (sgs := t) (fun s hs => h s (by simp [hs])) sg hs
  | .opt a (some x) :: t, h, sg, hs => by
    rcases List.mem_cons.1 hs with rfl | hs
    · exact h (.opt a (some x)) (by simp) x rfl
    · exact strip_wf (sgs := t) (fun s hs => h s (by simp [hs])) sg hs
  | .one .. :: t, h, sg, hs => by
    rcases List.mem_cons.1 hs with rfl | hs
    · exact h _ (by simp)
    · exact strip_wf (sgs := t) (fun s hs => h s (by simp [hs])) sg hs
  | .many .. :: t, h, sg, hs => by
    rcases List.mem_cons.1 hs with rfl | hs
    · exact h _ (by simp)
    · exact strip_wf (sgs := t) (fun s hs => h s (by simp [hs])) sg hs
  | .sep .. :: t, h, sg, hs => by
    rcases List.mem_cons.1 hs with rfl | hs
    · exact h _ (by simp)
    · exact strip_wf (sgs := t) (fun s hs => h s (by simp [hs])) sg hs
  | .cond .. :: t, h, sg, hs => by
    rcases List.mem_cons.1 hs with rfl | hs
    · exact h _ (by simp)
    · exact strip_wf (sgs := t) (fun s hs => h s (by simp [hs])) sg hs

theorem At.strip {k : String} {sgs : List (Sg Loc)} (h : At l k sgs) : At l k (strip sgs) :=
  ⟨h.kind, h.sane, h.dml, h.text, by rw [strip_locs]; exact h.view.1, strip_wf h.view.2⟩

/-- The next named node after the first child. -/
theorem next_first {k : String} {a : Atom} {x y : Loc} {sgs : List (Sg Loc)} (hv : At l k (.one a x :: sgs))
    (h : findSg mT sgs = some (some y)) : x.nextNamed = .ok y := by
  have h1 := view_nexts l
  rw [hv.view.1] at h1
  have h2 := findSg_sound decides_mT (fun sg hs => hv.view.2 sg (by simp [hs])) h
  have h3 : nexts x = locs sgs := h1.1
  rw [← h3, nexts, find_filter] at h2
  unfold Loc.nextNamed
  have : (fun c : Loc => !c.extra && c.named) = (fun c : Loc => c.named && !c.extra) := by
    funext c; exact Bool.and_comm _ _
  rw [this] at h2
  rw [h2]

/-- Only the root has no parent. -/
theorem Ctx.parent {k : String} {sgs : List (Sg Loc)} (C : Ctx root cm cfg bad rec l m) (hv : At l k sgs) (hk : k ≠ "parser_output") :
    ∃ p, l.parent = some p ∧ sane p.kind p.node.children = true := by
  cases C.reach with
  | root => exact absurd (hv.kind.symm.trans C.good.kind) hk
  | kid _ hs hx _ => exact ⟨_, children_parent hx, hs⟩

theorem chaining_ok {k : String} {sgs : List (Sg Loc)} (C : Ctx root cm cfg bad rec l m) (hv : At l k sgs) (hk : k ≠ "parser_output") :
    ∃ c, buildChainingContext l = .ok c := by
  obtain ⟨p, hp, _⟩ := C.parent hv hk
  unfold buildChainingContext
  rw [hp]
  dsimp only
  split <;> exact ⟨_, rfl⟩

theorem items_chainDoc (ctx : Option ChainingContext) (o : Prog) (ps : List Prog) :
    items cm (chainDoc ctx o ps) = seqR (items cm o) (itemss cm ps) := by
  unfold chainDoc
  split
  · flat
  · dsimp only
    split <;> split <;> flat

theorem SatL.kind_ne {a : Atom} {x : Loc} (h : SatL l a x) {k : String} (hk : a.kinds.all (· != k) = true) : ¬ x.kind = k := by
  intro e
  have := List.all_eq_true.1 hk _ (by simpa using h.fits.2.2.1)
  exact absurd e (by simpa [Loc.kind] using this)

theorem SatL.kind_eq {a : Atom} {x : Loc} (h : SatL l a x) {k : String} (hk : a.kinds = [k]) : x.kind = k := by
  have := h.fits.2.2.1
  rw [hk] at this
  simpa [Loc.kind] using this

/-- The navigation is printed as a dot. -/
theorem nav_dot {k : String} {a b : Atom} {x y : Loc} {sgs : List (Sg Loc)} (hv : At l k (.one a x :: sgs))
    (h : findSg mT sgs = some (some y)) (hy : SatL l b y) (hb : b.kinds.all (· != "safe_navigation_operator") = true) :
    propertyNavigation rec x = .ok (t ".") := by
  rw [propertyNavigation, next_first hv h]
  show (if y.kind = "safe_navigation_operator" then rec .safeNavigationOperator y else .ok (t ".")) = _
  rw [if_neg (hy.kind_ne hb)]

theorem nav_safe {k : String} {a : Atom} {x y : Loc} {sgs : List (Sg Loc)} (hv : At l k (.one a x :: .one (k0 .safeNavigationOperator) y :: sgs))
    (hy : SatL l (k0 .safeNavigationOperator) y) :
    propertyNavigation rec x = rec .safeNavigationOperator y := by
  rw [propertyNavigation, next_first hv rfl]
  show (if y.kind = "safe_navigation_operator" then rec .safeNavigationOperator y else .ok (t ".")) = _
  rw [if_pos (hy.kind_eq rfl)]

theorem methodInvocation_sx (C : Ctx root cm cfg bad rec l m) (h : conf l.node (.cls .methodInvocation) = true) :
    W bad (New.methodInvocation rec l) (fun p => Sx (items cm p) (full cm l)) := by
  rcases cls_at h rfl rfl rfl with ⟨x1, h1, x2, h2, hv⟩ | ⟨x1, h1, x2, h2, x3, h3, x4, h4, x5, h5, hv⟩ |
    ⟨x1, h1, x2, h2, x3, h3, x4, h4, x5, h5, hv⟩
  · nrm
    unfold New.methodInvocation
    repeat' stp
    rw [get_tryCByN hv.plain hv.view (rfl : findSg (nT "object") _ = some none)]
    fin
  · nrm
    unfold New.methodInvocation
    repeat' stp
    rw [get_tryCByN hv.plain hv.view (rfl : findSg (nT "object") _ = some (some x1))]
    dsimp only
    obtain ⟨ctx, hc⟩ := chaining_ok C hv (by decide)
    rw [hc]
    have hn : propertyNavigation rec x1 = .ok (t ".") := by
      cases x3 with
      | none => exact nav_dot (At.strip hv) rfl h4 rfl
      | some x3 => exact nav_dot (At.strip hv) rfl (h3 _ rfl) rfl
    rw [hn]
    repeat' stp
    show W bad (optR _ _ >>= _) _
    repeat' stp
    refine sx_bwcp C hv rfl ?_
    rw [itemss_one, items_chainDoc]
    inn
  · nrm
    unfold New.methodInvocation
    repeat' stp
    rw [get_tryCByN hv.plain hv.view (rfl : findSg (nT "object") _ = some (some x1))]
    dsimp only
    obtain ⟨ctx, hc⟩ := chaining_ok C hv (by decide)
    rw [hc, nav_safe hv h2]
    repeat' stp
    refine sx_bwcp C hv rfl ?_
    rw [itemss_one, items_chainDoc]
    inn

theorem prec_ok {k : String} (h : k ∈ binaryOps) : ∃ p, getPrecedence k = .ok p := by
  have : binaryOps.all (fun k => match getPrecedence k with | .ok _ => true | .error _ => false) = true := by decide
  have := List.all_eq_true.1 this k h
  cases hp : getPrecedence k with
  | ok p => exact ⟨p, rfl⟩
  | error e => rw [hp] at this; cases this

theorem binaryContext_ok (C : Ctx root cm cfg bad rec l m) {sgs : List (Sg Loc)} (hv : At l "binary_expression" sgs) {x : Loc}
    (hf : findSg (nT "operator") sgs = some (some x)) (hx : x.kind ∈ binaryOps) : ∃ c, binaryContext l = .ok c := by
  obtain ⟨p, hp, hs⟩ := C.parent hv (by decide)
  obtain ⟨q, hq⟩ := prec_ok hx
  have hop : l.cByN "operator" = .ok x := by rw [Loc.cByN, get_tryCByN hv.plain hv.view hf]
  unfold binaryContext
  simp only [hop, hp, hq, bind, Except.bind]
  by_cases hb : isBinaryExp p = true
  · rw [if_pos hb]
    have hk : p.kind = "binary_expression" := by simpa [isBinaryExp] using hb
    rw [hk] at hs
    obtain ⟨⟨c, hc, hce, hcf⟩, h2⟩ := sane_operator hs
    rw [← children_map] at hc
    obtain ⟨y, hy, rfl⟩ := List.mem_map.1 hc
    cases hfd : p.tryCByN "operator" with
    | none =>
      have := List.find?_eq_none.1 hfd y hy
      simp [hcf] at this
    | some z =>
      have hz := List.find?_some hfd
      have hzm := List.mem_of_find?_eq_some hfd
      have hzf : z.node.field = some "operator" := by simpa using hz
      have hze : z.node.extra = false := by
        cases he : z.node.extra with
        | false => rfl
        | true =>
          have := (plain_of_sane (l := p) (by rw [hk]; exact hs) z hzm he).1
          rw [hzf] at this; cases this
      obtain ⟨r, hr⟩ := prec_ok (h2 z.node (mem_children_node hzm) hze hzf)
      have : p.cByN "operator" = .ok z := by rw [Loc.cByN, hfd]
      simp only [this, show z.kind = z.node.kind from rfl, hr]
      exact ⟨_, rfl⟩
  · rw [if_neg hb]
    exact ⟨_, rfl⟩

theorem binaryExpression_sx (C : Ctx root cm cfg bad rec l m) (h : conf l.node (.cls .binaryExpression) = true) :
    W bad (New.binaryExpression rec l) (fun p => Sx (items cm p) (full cm l)) := by
  obtain ⟨x1, h1, x2, h2, x3, h3, hv⟩ := cls_at h rfl rfl rfl
  nrm
  unfold New.binaryExpression
  obtain ⟨ctx, hc⟩ := binaryContext_ok C hv rfl (by have := h2.fits.2.2.1; exact this)
  rw [hc]
  repeat' stp
  show W bad (.ok _) _
  repeat' stp
  fin

end
end Afmt.Gram
