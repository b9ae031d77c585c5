import Verif.Gram.C4

/-!
# The printed content of nodes: src/data_model.rs 2061-3830
-/

namespace Afmt.Gram
open Prog New
set_option maxRecDepth 10000
section
variable {root : Node} {cm : CMap} {cfg : Cfg} {bad : Panic → Prop} {rec : Rec} {l : Loc} {m : Nat}

theorem fieldAccess_sx (C : Ctx root cm cfg bad rec l m) (h : conf l.node (.cls .fieldAccess) = true) :
    W bad (New.fieldAccess rec l) (fun p => Sx (items cm p) (full cm l)) := by
  rcases cls_at h rfl rfl rfl with ⟨x1, h1, x2, h2, x3, h3, hv⟩ | ⟨x1, h1, x2, h2, x3, h3, hv⟩
  · nrm
    unfold New.fieldAccess
    repeat' stp
    rw [fieldNavigation, get_tryCByK hv.plain hv.view rfl (rfl : findSg (kT "safe_navigation_operator") _ = some none)]
    refine W_then (W_ok (Q := fun p => p = t ".") rfl) ?_
    rintro _ rfl
    repeat' stp
    obtain ⟨ctx, hc⟩ := chaining_ok C hv (by decide)
    rw [hc]
    refine W_ok (sx_bwcp C hv rfl ?_)
    rw [itemss_one, items_chainDoc]
    inn
  · nrm
    unfold New.fieldAccess
    repeat' stp
    rw [fieldNavigation, get_tryCByK hv.plain hv.view rfl (rfl : findSg (kT "safe_navigation_operator") _ = some (some x2))]
    dsimp only
    repeat' stp
    obtain ⟨ctx, hc⟩ := chaining_ok C hv (by decide)
    rw [hc]
    refine W_ok (sx_bwcp C hv rfl ?_)
    rw [itemss_one, items_chainDoc]
    inn

theorem dimensions_sx (C : Ctx root cm cfg bad rec l m) (h : conf l.node (.cls .dimensions) = true) :
    W bad (New.dimensions l) (fun p => Sx (items cm p) (full cm l)) := by
  obtain ⟨x1, h1, x2, h2, hv⟩ := cls_at h rfl rfl rfl
  nrm
  unfold New.dimensions
  repeat' stp
  fin

theorem sx_inner {k : String} {sgs : List (Sg Loc)} (C : Ctx root cm cfg bad rec l m) (hv : At l k sgs) {p : Option Punc} {ms : List Prog}
    (hb : braceKinds.contains k = false) (hq : quietKinds.contains k = true) {K P : Cont} (hi : inner cm l = K ++ P)
    (hm : Sx (itemss cm ms) K) (hp : Sx (itemss cm (punctOpt p)) P) (hz : anchors (codeC P) = 0)
    (hl : postHold k = .loose) :
    Sx (items cm (withCommentsAndPunc l.id p ms)) (full cm l) := by
  rw [full_eq C hv, C.reach.quiet cm (by rw [hv.kind]; exact hq), List.append_nil, hi]
  obtain ⟨b, hb1, hb2⟩ := C.reach.bucket C.good
  refine sx_weaken (sx_wrapped hb1 (C.reach.calm C.good (calm_of hv hb) hb1) hb2 l.kind hm hp) ?_ ?_ ?_
  · simp [codeC_acom]
  · simp only [spots_append, codeC_append, anchors_append, codeC_acom, anchors_nil, hz, Nat.add_zero, List.append_assoc]
    exact within_perm (List.Perm.append_left _ (List.Perm.append_left _ List.perm_append_comm))
  · rw [hv.kind, acom_eq hb2, hl]
    simp

theorem sx_innerAttached {k : String} {sgs : List (Sg Loc)} (C : Ctx root cm cfg bad rec l m) (hv : At l k sgs) {p : Option Punc} {ms : List Prog}
    (hb : braceKinds.contains k = false) (hq : quietKinds.contains k = true) {K P : Cont} (hi : inner cm l = K ++ P)
    (hm : Sx (itemss cm ms) K) (hp : Sx (itemss cm (punctOpt p)) P) :
    Sx (items cm (withCommentsAndPuncAttached l.id p ms)) (full cm l) := by
  rw [full_eq C hv, C.reach.quiet cm (by rw [hv.kind]; exact hq), List.append_nil, hi]
  obtain ⟨b, hb1, hb2⟩ := C.reach.bucket C.good
  exact sx_attached hb1 (C.reach.calm C.good (calm_of hv hb) hb1) hb2 _ hm hp

theorem sx_semiOpt (C : Ctx root cm cfg bad rec l m) (hs : sane l.kind l.node.children = true) {x : Loc} (hx : SatL l (tok ";") x) :
    Sx (itemss cm (punctOpt (some (Punc.ofLoc x)))) (cont cm x.node) := by
  rw [punctOpt, itemss_one]
  exact sx_semi C hs hx

theorem returnStatement_sx (C : Ctx root cm cfg bad rec l m) (h : conf l.node (.cls .returnStatement) = true) :
    W bad (New.returnStatement rec l) (fun p => Sx (items cm p) (full cm l)) := by
  rcases cls_at h rfl rfl rfl with ⟨x1, h1, x2, h2, x3, h3, hv⟩ | ⟨x1, h1, x2, h2, hv⟩
  · nrm
    unfold New.returnStatement
    repeat' stp
    rw [get_tryFirstC hv.view (rfl : findSg mT _ = some (some x2))]
    dsimp only
    repeat' stp
    fin
  · nrm
    unfold New.returnStatement
    repeat' stp
    rw [get_tryFirstC hv.view (rfl : findSg mT _ = some none)]
    dsimp only
    rw [Punc.fromInner, get_findPunct hv.plain hv.view (rfl : findSg pT _ = some (some x2))]
    refine W_ok (sx_innerAttached C hv rfl rfl (K := cont cm x1.node) (P := cont cm x2.node) ?_ ?_ (sx_semiOpt C hv.sane h2))
    · rw [inner_at hv rfl, List.append_nil]
    · rw [itemss_one]; exact sx_tok h1 (by decide)

theorem breakStatement_sx (C : Ctx root cm cfg bad rec l m) (h : conf l.node (.cls .breakStatement) = true) :
    W bad (New.breakStatement rec l) (fun p => Sx (items cm p) (full cm l)) := by
  rcases cls_at h rfl rfl rfl with ⟨x1, h1, x2, h2, hv⟩ | ⟨x1, h1, x2, h2, x3, h3, hv⟩
  · nrm
    unfold New.breakStatement New.jump
    repeat' stp
    rw [get_tryCByK hv.plain hv.view rfl (rfl : findSg (kT "identifier") _ = some none)]
    dsimp only
    rw [Punc.fromInner, get_findPunct hv.plain hv.view (rfl : findSg pT _ = some (some x2))]
    refine W_ok (sx_innerAttached C hv rfl rfl (K := cont cm x1.node) (P := cont cm x2.node) ?_ ?_ (sx_semiOpt C hv.sane h2))
    · rw [inner_at hv rfl, List.append_nil]
    · rw [itemss_one]; exact sx_tok h1 (by decide)
  · nrm
    unfold New.breakStatement New.jump
    repeat' stp
    rw [get_tryCByK hv.plain hv.view rfl (rfl : findSg (kT "identifier") _ = some (some x2))]
    dsimp only
    repeat' stp
    fin

theorem continueStatement_sx (C : Ctx root cm cfg bad rec l m) (h : conf l.node (.cls .continueStatement) = true) :
    W bad (New.continueStatement rec l) (fun p => Sx (items cm p) (full cm l)) := by
  rcases cls_at h rfl rfl rfl with ⟨x1, h1, x2, h2, hv⟩ | ⟨x1, h1, x2, h2, x3, h3, hv⟩
  · nrm
    unfold New.continueStatement New.jump
    repeat' stp
    rw [get_tryCByK hv.plain hv.view rfl (rfl : findSg (kT "identifier") _ = some none)]
    dsimp only
    rw [Punc.fromInner, get_findPunct hv.plain hv.view (rfl : findSg pT _ = some (some x2))]
    refine W_ok (sx_innerAttached C hv rfl rfl (K := cont cm x1.node) (P := cont cm x2.node) ?_ ?_ (sx_semiOpt C hv.sane h2))
    · rw [inner_at hv rfl, List.append_nil]
    · rw [itemss_one]; exact sx_tok h1 (by decide)
  · nrm
    unfold New.continueStatement New.jump
    repeat' stp
    rw [get_tryCByK hv.plain hv.view rfl (rfl : findSg (kT "identifier") _ = some (some x2))]
    dsimp only
    repeat' stp
    fin

theorem arrayCreationExpression_sx (C : Ctx root cm cfg bad rec l m) (h : conf l.node (.cls .arrayCreationExpression) = true) :
    W bad (New.arrayCreationExpression rec l) (fun p => Sx (items cm p) (full cm l)) := by
  rcases cls_at h rfl rfl rfl with ⟨x1, h1, x2, h2, x3, h3, x4, h4, x5, h5, hv⟩ | ⟨x1, h1, x2, h2, x3, h3, hv⟩ | ⟨x1, h1, x2, h2, x3, h3, x4, h4, hv⟩
  · nrm
    unfold New.arrayCreationExpression
    repeat' stp
    rw [get_tryCByN hv.plain hv.view (rfl : findSg (nT "value") _ = some none)]
    refine W_then (P := fun ps => Sx (itemss cm ps) (full cm x3 ++ (x4.flatMap (full cm) ++ ofull cm x5))) ?_ ?_
    · repeat' stp
      rename_i ps hps _ o ho hoe
      rw [← List.append_assoc, ← List.flatMap_cons, itemss_append]
      refine sx_seq hps ?_
      cases o with
      | none => exact ho
      | some d =>
        dsimp only
        flat
        simpa only [opt, itemss_one, seqR_unit_right] using ho
    · intro ps hps
      repeat' stp
      fin
      rw [← List.append_assoc, ← List.append_assoc, List.append_nil, List.append_assoc, seqR_unit_right]
      assumption
  · nrm
    unfold New.arrayCreationExpression
    repeat' stp
    rw [get_tryCByN hv.plain hv.view (rfl : findSg (nT "value") _ = some (some x3)),
      get_tryCByN hv.plain hv.view (rfl : findSg (nT "dimensions") _ = some none)]
    refine W_then (P := fun ps => Sx (itemss cm ps) (full cm x3)) ?_ ?_
    · repeat' stp
      rw [itemss_one]; assumption
    · intro ps hps
      repeat' stp
      fin
  · nrm
    unfold New.arrayCreationExpression
    repeat' stp
    rw [get_tryCByN hv.plain hv.view (rfl : findSg (nT "value") _ = some (some x4)),
      get_tryCByN hv.plain hv.view (rfl : findSg (nT "dimensions") _ = some (some x3))]
    refine W_then (P := fun ps => Sx (itemss cm ps) (full cm x3 ++ full cm x4)) ?_ ?_
    · repeat' stp
      flat
      exact sx_seq (by assumption) (by rw [seqR_unit_right]; assumption)
    · intro ps hps
      repeat' stp
      fin
      all_goals rw [← List.append_assoc, List.append_nil, seqR_unit_right]
      all_goals assumption

theorem tryStatement_sx (C : Ctx root cm cfg bad rec l m) (h : conf l.node (.cls .tryStatement) = true) :
    W bad (New.tryStatement rec l) (fun p => Sx (items cm p) (full cm l)) := by
  rcases cls_at h rfl rfl rfl with ⟨x1, h1, x2, h2, x3, h3, x4, h4, hv⟩ | ⟨x1, h1, x2, h2, x3, h3, x4, h4, hv⟩
  · nrm
    unfold New.tryStatement
    repeat' stp
    rw [get_tryCByK hv.plain hv.view rfl (rfl : findSg (kT "finally_clause") _ = some none)]
    refine W_then (P := fun ps => Sx (itemss cm ps) (full cm x3 ++ x4.flatMap (full cm))) ?_ ?_
    · repeat' stp
      rw [itemss_one, items_concat]
      assumption
    · intro ps hps
      repeat' stp
      fin
      all_goals rw [← List.append_assoc, List.append_nil, seqR_unit_right]
      all_goals assumption
  · nrm
    unfold New.tryStatement
    repeat' stp
    rw [get_tryCByK hv.plain hv.view rfl (rfl : findSg (kT "finally_clause") _ = some (some x4))]
    refine W_then (P := fun ps => Sx (itemss cm ps) (x3.flatMap (full cm) ++ full cm x4)) ?_ ?_
    · repeat' stp
      flat
      exact sx_seq (by assumption) (by rw [seqR_unit_right]; assumption)
    · intro ps hps
      repeat' stp
      fin
      all_goals rw [← List.append_assoc, List.append_nil, seqR_unit_right]
      all_goals assumption

theorem accessorDeclaration_sx (C : Ctx root cm cfg bad rec l m) (h : conf l.node (.cls .accessorDeclaration) = true) :
    W bad (New.accessorDeclaration rec l) (fun p => Sx (items cm p) (full cm l)) := by
  rcases cls_at h rfl rfl rfl with ⟨x1, h1, x2, h2, x3, h3, hv⟩ | ⟨x1, h1, x2, h2, x3, h3, hv⟩
  · nrm
    unfold New.accessorDeclaration
    repeat' stp
    rw [Punc.fromInner, get_findPunct hv.plain hv.view (rfl : findSg pT _ = some none)]
    refine sx_inner C hv rfl rfl (List.append_nil _).symm ?_ (by rw [Option.map_none, punctOpt, itemss_nil]; exact sx_unit) rfl rfl
    inn
  · nrm
    unfold New.accessorDeclaration
    repeat' stp
    rw [Punc.fromInner, get_findPunct hv.plain hv.view (rfl : findSg pT _ = some (some x3))]
    refine sx_inner C hv rfl rfl (K := ofull cm x1 ++ cont cm x2.node) (P := cont cm x3.node) ?_ ?_ (sx_semiOpt C hv.sane h3) (anchors_tok h3) rfl
    · rw [inner_at hv rfl, List.append_nil, List.append_assoc]
    · flat
      refine sx_seq (by assumption) ?_
      rw [seqR_unit_right]
      exact sx_tokV h2

theorem whenSObjectType_sx (C : Ctx root cm cfg bad rec l m) (h : conf l.node (.cls .whenSObjectType) = true) :
    W bad (New.whenSObjectType rec l) (fun p => Sx (items cm p) (full cm l)) := by
  obtain ⟨x1, h1, x2, h2, hv⟩ := cls_at h rfl rfl rfl
  nrm
  unfold New.whenSObjectType
  rw [get_childrenVec hv.view (rfl : filterSg mT _ = some [x1, x2])]
  have e1 : (x1.kind != "identifier") = true := by simpa using h1.kind_ne (k := "identifier") rfl
  have e1' : (x1.kind == "identifier") = false := by simpa using h1.kind_ne (k := "identifier") rfl
  have e2 : x2.kind = "identifier" := h2.kind_eq rfl
  simp only [List.filter_cons, List.filter_nil, e1, e1', e2, if_true, bne_self_eq_false, beq_self_eq_true, Bool.false_eq_true, if_false]
  refine W_map C hv.sane (xs := [x1]) (a := k0 .unannotatedType) (by simpa using h1) rfl rfl rfl ?_
  intro ps hps hl
  match ps, hl with
  | [p], _ =>
    have hi := sx_ident (cm := cm) h2 (pcont_last hv.nexts.2.1)
    refine W_ok (sx_bwcp C hv rfl (sx_in hv rfl ?_))
    flat
    rw [itemss_one] at hps
    simp only [List.flatMap_cons, List.flatMap_nil, List.append_nil] at hps
    repeat' es1

theorem dmlSecurityMode_sx (C : Ctx root cm cfg bad rec l m) (h : conf l.node (.cls .dmlSecurityMode) = true) :
    W bad (New.dmlSecurityMode l) (fun p => Sx (items cm p) (full cm l)) := by
  obtain ⟨x1, h1, x2, h2, hv⟩ := cls_at h rfl rfl rfl
  nrm
  unfold New.dmlSecurityMode
  repeat' stp
  have hk : x2.kind = "user" ∨ x2.kind = "system" := by simpa [Loc.kind] using h2.fits.2.2.1
  rw [if_pos hk]
  have hs : spelled x2.node = true := by
    have := conf_value (h2.1.2 _ rfl) rfl
    exact this.1
  have hi := sx_text (cm := cm) hs (pcont_last hv.nexts.2.1) (SameL.spelled hs)
  refine W_ok (sx_raw C hv rfl ?_)
  inn

theorem switchLabel_sx (C : Ctx root cm cfg bad rec l m) (h : conf l.node (.cls .switchLabel) = true) :
    W bad (New.switchLabel rec l) (fun p => Sx (items cm p) (full cm l)) := by
  rcases cls_at h rfl rfl rfl with ⟨x1, h1, x2, h2, hv⟩ | ⟨x1, h1, x2, h2, hv⟩ | ⟨x1, h1, x2, y2, h2, hv⟩
  · nrm
    unfold New.switchLabel
    repeat' stp
    rw [get_childrenVec hv.view (rfl : filterSg mT _ = some []), if_pos List.isEmpty_nil]
    have hi : Sx (items cm (t "else")) (full cm x2) := by
      rw [full, pcont_last hv.nexts.2.1, List.append_nil]
      exact sx_tok h2 (by decide)
    refine W_ok (sx_raw C hv rfl ?_)
    inn
  · nrm
    unfold New.switchLabel
    repeat' stp
    rw [get_childrenVec hv.view (rfl : filterSg mT _ = some [x2]), if_neg (by simp)]
    rw [get_tryCByK hv.plain hv.view rfl (rfl : findSg (kT "when_sobject_type") _ = some (some x2))]
    dsimp only
    repeat' stp
    refine (sx_raw C hv rfl ?_)
    inn
  · nrm
    unfold New.switchLabel
    repeat' stp
    rw [get_childrenVec hv.view (rfl : filterSg mT _ = some x2), if_neg (by simpa using h2.ne)]
    rw [get_tryCByK hv.plain hv.view rfl (rfl : findSg (kT "when_sobject_type") _ = some none)]
    dsimp only
    repeat' stp
    refine (sx_raw C hv rfl ?_)
    inn

theorem enumBody_sx (C : Ctx root cm cfg bad rec l m) (h : conf l.node (.cls .enumBody) = true) :
    W bad (New.enumBody rec l) (fun p => Sx (items cm p) (full cm l)) := by
  rcases cls_at h rfl rfl rfl with ⟨x1, h1, x2, y2, h2, x3, h3, hv⟩ | ⟨x1, h1, x2, y2, h2, x3, h3, x4, h4, hv⟩
  · nrm
    unfold New.enumBody
    repeat' stp
    rename_i cs hcs hl
    have hi := inner_at (cm := cm) hv rfl
    by_cases hc : cs = []
    · subst hc
      rw [if_pos List.isEmpty_nil]
      have : x2 = [] := by simpa using hl.symm
      subst this
      refine sx_brace C hv rfl h1 h3 (Or.inr rfl) ?_ (fun _ => hi)
      inn
      refine sx_emptyList ?_
      repeat' es1
    · rw [if_neg (by simpa using hc)]
      refine sx_brace C hv rfl h1 h3 (Or.inl (by rw [items_concat, itemss_cons, itemss_one])) ?_ ?_
      · inn
      · intro hH
        have := hollow_nil hH (sep0_all h2) rfl
        subst this
        exact absurd (List.eq_nil_of_length_eq_zero hl) hc
  · nrm
    unfold New.enumBody
    repeat' stp
    rename_i cs hcs hl
    have hi := inner_at (cm := cm) hv rfl
    by_cases hc : cs = []
    · subst hc
      have : x2 = [] := by simpa using hl.symm
      exact absurd this h2.ne
    · rw [if_neg (by simpa using hc)]
      refine sx_brace C hv rfl h1 h4 (Or.inl (by rw [items_concat, itemss_cons, itemss_one])) ?_ ?_
      · inn
      · intro hH
        have := hollow_nil hH h2.all rfl
        subst this
        exact absurd (List.eq_nil_of_length_eq_zero hl) hc

theorem dmlOperation_eq {x y : Loc} (h1 : l.children.find? (fun c => c.kind == "dml_type") = some x) (h2 : x.tryFirstC = some y) :
    dmlOperation l.node = some y.kind := by
  unfold dmlOperation
  have e1 : l.node.children.find? (fun c => c.kind == "dml_type") = some x.node := by
    rw [← children_map l, List.find?_map]
    show (l.children.find? (fun c => c.kind == "dml_type")).map Loc.node = _
    rw [h1]; rfl
  rw [e1]
  rw [Loc.tryFirstC, Loc.namedChildren, List.find?_filter] at h2
  dsimp only
  rw [← children_map x, List.find?_map]
  have e2 : x.children.find? ((fun c : Node => c.named && !c.extra) ∘ Loc.node) = some y := by
    rw [← h2]
    congr 1
    funext c
    simp [Loc.named, Loc.extra, Function.comp]
  rw [e2]
  rfl

theorem dmlSane_cases {op : String} (hk : l.kind = "dml_expression") (hd : dmlSane l.node = true) (ho : dmlOperation l.node = some op) :
    (op = "merge" → ∃ c ∈ l.node.children, c.field = some "merge_with") ∧
    (op ≠ "merge" → ∀ c ∈ l.node.children, c.field ≠ some "merge_with") ∧
    (op ≠ "merge" → op ≠ "upsert" → ∀ c ∈ l.node.children, c.field ≠ some "upsert_key") := by
  unfold dmlSane at hd
  rw [ho, show l.node.kind = "dml_expression" from hk] at hd
  simp only [bne_self_eq_false, Bool.false_or] at hd
  split at hd
  · rename_i e
    cases e
    simp only [List.any_eq_true, beq_iff_eq] at hd
    exact ⟨fun _ => hd, fun h => absurd rfl h, fun h => absurd rfl h⟩
  · rename_i e
    cases e
    simp only [List.all_eq_true, bne_iff_ne] at hd
    exact ⟨fun h => absurd h (by decide), fun _ => hd, fun _ h => absurd rfl h⟩
  · rename_i e1 e2
    simp only [List.all_eq_true, bne_iff_ne, Bool.and_eq_true] at hd
    exact ⟨fun h => absurd (by rw [h]) e1, fun _ c hc => (hd c hc).1, fun _ _ c hc => (hd c hc).2⟩

theorem no_field {k f : String} {sgs : List (Sg Loc)} (hv : At l k sgs) (h : findSg (nT f) sgs = some none) :
    ∀ c ∈ l.node.children, c.field ≠ some f := by
  have := get_tryCByN hv.plain hv.view h
  rw [Loc.tryCByN, List.find?_eq_none] at this
  intro c hc
  rw [← children_map l] at hc
  obtain ⟨x, hx, rfl⟩ := List.mem_map.1 hc
  simpa using this x hx

theorem has_field {f : String} {ks : List String} {nt : Option NT} {b : Bool} {x : Loc} (h : SatL l ⟨b, [some f], ks, nt⟩ x) :
    ∃ c ∈ l.node.children, c.field = some f :=
  ⟨x.node, mem_children_node (mem_view.1 h.2).1, by simpa using h.fits.2.1⟩

theorem dmlExpressionVariant_sx (C : Ctx root cm cfg bad rec l m) (h : conf l.node (.cls .dmlExpressionVariant) = true) :
    W bad (New.dmlExpressionVariant rec l) (fun p => Sx (items cm p) (body cm l)) := by
  rcases cls_at h rfl rfl rfl with ⟨x1, h1, x2, h2, x3, h3, hv⟩ | ⟨x1, h1, x2, h2, x3, h3, x4, h4, hv⟩ | ⟨x1, h1, x2, h2, x3, h3, x4, h4, hv⟩
  · nrm
    obtain ⟨y, hy, hw⟩ := cls_at (h1.1.2 _ rfl) rfl rfl rfl
    have hop := dmlOperation_eq (get_findKind hv.plain hv.view rfl (rfl : findSg (eT "dml_type") _ = some (some x1)))
      (get_tryFirstC hw.view (rfl : findSg mT _ = some (some y)))
    obtain ⟨hd1, hd2, hd3⟩ := dmlSane_cases hv.kind hv.dml hop
    have hm : y.kind ≠ "merge" := by
      intro e
      obtain ⟨c, hc, hf⟩ := hd1 e
      exact no_field hv rfl c hc hf
    rw [body_eq hv]
    unfold New.dmlExpressionVariant
    repeat' stp
    rename_i sm hsm _ _ _ _ _
    rw [Loc.firstC, get_tryFirstC hw.view (rfl : findSg mT _ = some (some y))]
    refine W_then (W_ok (Q := fun z => z = y) rfl) ?_
    rintro _ rfl
    rw [if_neg hm]
    split
    · repeat' stp
      inn
    · repeat' stp
      cases sm <;> rw [opt] at hsm
      · rw [itemss_nil] at hsm
        inn
        rw [← seqR_unit (seqR (items cm _) unit)]
        repeat' es1
      · rw [itemss_one] at hsm
        inn
  · nrm
    obtain ⟨y, hy, hw⟩ := cls_at (h1.1.2 _ rfl) rfl rfl rfl
    have hop := dmlOperation_eq (get_findKind hv.plain hv.view rfl (rfl : findSg (eT "dml_type") _ = some (some x1)))
      (get_tryFirstC hw.view (rfl : findSg mT _ = some (some y)))
    obtain ⟨hd1, hd2, hd3⟩ := dmlSane_cases hv.kind hv.dml hop
    have hm : y.kind ≠ "merge" := by
      intro e
      obtain ⟨c, hc, hf⟩ := hd1 e
      exact no_field hv rfl c hc hf
    have hu : y.kind = "upsert" := by
      refine Classical.byContradiction fun e => ?_
      obtain ⟨c, hc, hf⟩ := has_field h4
      exact hd3 hm e c hc hf
    rw [body_eq hv]
    unfold New.dmlExpressionVariant
    repeat' stp
    rw [Loc.firstC, get_tryFirstC hw.view (rfl : findSg mT _ = some (some y))]
    refine W_then (W_ok (Q := fun z => z = y) rfl) ?_
    rintro _ rfl
    rw [if_neg hm, if_pos hu]
    repeat' stp
    inn
  · nrm
    obtain ⟨y, hy, hw⟩ := cls_at (h1.1.2 _ rfl) rfl rfl rfl
    have hop := dmlOperation_eq (get_findKind hv.plain hv.view rfl (rfl : findSg (eT "dml_type") _ = some (some x1)))
      (get_tryFirstC hw.view (rfl : findSg mT _ = some (some y)))
    obtain ⟨hd1, hd2, hd3⟩ := dmlSane_cases hv.kind hv.dml hop
    have hm : y.kind = "merge" := by
      refine Classical.byContradiction fun e => ?_
      obtain ⟨c, hc, hf⟩ := has_field h4
      exact hd2 e c hc hf
    rw [body_eq hv]
    unfold New.dmlExpressionVariant
    repeat' stp
    rename_i sm hsm _ _ _ _ _
    rw [Loc.firstC, get_tryFirstC hw.view (rfl : findSg mT _ = some (some y))]
    refine W_then (W_ok (Q := fun z => z = y) rfl) ?_
    rintro _ rfl
    rw [if_pos hm]
    repeat' stp
    cases sm <;> rw [opt] at hsm
    · rw [itemss_nil] at hsm
      inn
      rw [← seqR_unit (seqR (items cm _) _)]
      repeat' es1
    · rw [itemss_one] at hsm
      inn

end
end Afmt.Gram
