import Verif.Gram.C7

/-!
# The printed content of nodes: clauses, variants and their wrappers (src/data_model.rs 3828-6094, src/enum_def.rs 880-1651)
-/

namespace Afmt.Gram
open Prog New
set_option maxRecDepth 10000
section
variable {root : Node} {cm : CMap} {cfg : Cfg} {bad : Panic → Prop} {rec : Rec} {l : Loc} {m : Nat}

/-! ### Variants -/

theorem fieldIdentifierVariant_sx (C : Ctx root cm cfg bad rec l m) (h : conf l.node (.cls .fieldIdentifierVariant) = true) :
    W bad (New.fieldIdentifierVariant rec l) (fun p => Sx (items cm p) (body cm l)) := by
  rcases cls_at h rfl rfl rfl with ⟨x1, h1, hv⟩ | ⟨x1, h1, hv⟩
  all_goals
    nrm
    unfold New.fieldIdentifierVariant
    repeat' stp
    rw [body_eq hv]
    refine W_mono (C.pick hv.sane h1 rfl rfl rfl rfl rfl) ?_
    intro p hp
    refine sx_in hv rfl ?_
    rw [List.append_nil]
    exact hp

theorem storageIdentifierVariant_sx (C : Ctx root cm cfg bad rec l m) (h : conf l.node (.cls .storageIdentifierVariant) = true) :
    W bad (New.storageIdentifierVariant rec l) (fun p => Sx (items cm p) (body cm l)) := by
  rcases cls_at h rfl rfl rfl with ⟨x1, h1, hv⟩ | ⟨x1, h1, hv⟩
  · nrm
    unfold New.storageIdentifierVariant
    repeat' stp
    rw [body_eq hv, if_pos (h1.kind_eq rfl)]
    refine W_mono (C.sat hv.sane h1 rfl rfl rfl) ?_
    intro p hp
    refine sx_in hv rfl ?_
    rw [List.append_nil]
    exact hp
  · nrm
    unfold New.storageIdentifierVariant
    repeat' stp
    rw [body_eq hv, if_neg (h1.kind_ne rfl), if_pos (h1.kind_eq rfl)]
    have C' := C.into hv.sane h1 rfl
    obtain ⟨x2, y2, h2, hv'⟩ := cls_at (h1.1.2 _ rfl) rfl rfl rfl
    change At _ _ _ at hv'
    refine W_csByK hv' rfl rfl h2.ne ?_
    refine W_sep (sep := .s ".") C' hv'.sane h2 rfl rfl rfl rfl ?_ ?_
    · intro x hx
      show Sx (itemss cm [t "."]) _
      rw [itemss_one]
      exact sx_tok hx (by decide)
    · intro ps hps
      refine W_ok (sx_in hv rfl ?_)
      rw [List.append_nil]
      refine sx_unwrapped C' hv' (pcont_last hv.nexts.1) (sx_in hv' rfl ?_)
      rw [List.append_nil]
      exact hps

theorem geoLocationTypeVariant_sx (C : Ctx root cm cfg bad rec l m) (h : conf l.node (.cls .geoLocationTypeVariant) = true) :
    W bad (New.geoLocationTypeVariant rec l) (fun p => Sx (items cm p) (body cm l)) := by
  rcases cls_at h rfl rfl rfl with ⟨x1, h1, hv⟩ | ⟨x1, h1, hv⟩ | ⟨x1, h1, x2, h2, x3, h3, x4, h4, x5, h5, x6, h6, hv⟩
  · nrm
    unfold New.geoLocationTypeVariant
    repeat' stp
    rw [body_eq hv, if_pos (h1.kind_eq rfl)]
    refine W_mono (C.sat hv.sane h1 rfl rfl rfl) ?_
    intro p hp
    refine sx_in hv rfl ?_
    rw [List.append_nil]
    exact hp
  · nrm
    unfold New.geoLocationTypeVariant
    repeat' stp
    rw [body_eq hv, if_neg (h1.kind_ne rfl), if_pos (h1.kind_eq rfl)]
    refine W_mono (C.sat hv.sane h1 rfl rfl rfl) ?_
    intro p hp
    refine sx_in hv rfl ?_
    rw [List.append_nil]
    exact hp
  · nrm
    unfold New.geoLocationTypeVariant
    repeat' stp
    rw [body_eq hv, if_neg (h1.kind_ne rfl), if_neg (h1.kind_ne rfl), if_pos (h1.kind_eq rfl)]
    repeat' stp
    inn

theorem selectClauseVariant_sx (C : Ctx root cm cfg bad rec l m) (h : conf l.node (.cls .selectClauseVariant) = true) :
    W bad (New.selectClauseVariant rec l) (fun p => Sx (items cm p) (body cm l)) := by
  rcases cls_at h rfl rfl rfl with ⟨x1, h1, x2, h2, hv⟩ | ⟨x1, h1, x2, y2, h2, hv⟩
  · nrm
    unfold New.selectClauseVariant
    repeat' stp
    rw [body_eq hv, get_tryCByK hv.plain hv.view rfl (rfl : findSg (kT "count_expression") _ = some (some x2))]
    dsimp only
    repeat' stp
    inn
  · nrm
    unfold New.selectClauseVariant
    repeat' stp
    rw [body_eq hv, get_tryCByK hv.plain hv.view rfl (rfl : findSg (kT "count_expression") _ = some none)]
    dsimp only
    refine W_then (P := fun p => Sx (items cm p) (x2.flatMap (full cm))) ?_ ?_
    · repeat' stp
      flat
      assumption
    · intro p hp
      refine W_ok ?_
      inn

theorem functionExpressionVariant_sx (C : Ctx root cm cfg bad rec l m) (h : conf l.node (.cls .functionExpressionVariant) = true) :
    W bad (New.functionExpressionVariant rec l) (fun p => Sx (items cm p) (body cm l)) := by
  rcases cls_at h rfl rfl rfl with ⟨x1, h1, x2, h2, x3, y3, h3, x4, h4, hv⟩ |
    ⟨x1, h1, x2, h2, x3, h3, x4, h4, x5, h5, x6, h6, x7, h7, x8, h8, hv⟩ |
    ⟨x1, h1, x2, h2, x3, h3, x4, h4, x5, h5, x6, h6, x7, h7, x8, h8, hv⟩
  · nrm
    unfold New.functionExpressionVariant
    repeat' stp
    rw [body_eq hv, get_tryCByK hv.plain hv.view rfl (rfl : findSg (kT "geo_location_type") _ = some none)]
    dsimp only
    repeat' stp
    rw [get_childrenVec hv.view (rfl : filterSg mT _ = some (x1 :: x3)), List.drop_succ_cons, List.drop_zero]
    repeat' stp
    inn
  · nrm
    unfold New.functionExpressionVariant
    repeat' stp
    rw [body_eq hv, get_tryCByK hv.plain hv.view rfl (rfl : findSg (kT "geo_location_type") _ = some (some x5))]
    dsimp only
    repeat' stp
    inn
  · nrm
    unfold New.functionExpressionVariant
    repeat' stp
    rw [body_eq hv, get_tryCByK hv.plain hv.view rfl (rfl : findSg (kT "geo_location_type") _ = some (some x5))]
    dsimp only
    repeat' stp
    inn

/-! ### Wrappers -/

theorem full_body (C : Ctx root cm cfg bad rec l m) : full cm l = bcom cm l.kind l.id ++ body cm l ++ acom cm l.kind l.id ++ pcont cm l := by
  have ha := C.reach.assoc C.good
  have he : l.node.extra = false := by
    simp only [Node.associable, Bool.and_eq_true, Bool.not_eq_true'] at ha
    exact ha.1
  rw [full]
  congr 1
  unfold body
  cases hc : l.node.children with
  | nil =>
    dsimp only
    have : l.node.associable = true := ha
    revert hc he this
    show _ → _ → _ → cont cm l.node = bcom cm l.node.kind l.node.id ++ _ ++ acom cm l.node.kind l.node.id
    generalize l.node = n
    intro he hc this
    cases n with
    | mk id kind named extra err field sr er sb eb text children =>
      have hb : (named || isAssociableUnnamedKind kind) = true := by
        simp only [Node.associable, Bool.and_eq_true] at this; exact this.2
      have he : extra = false := he
      have hc : children = [] := hc
      subst hc
      subst he
      rw [cont]
      simp only [Bool.false_eq_true, if_false, hb, if_true]
      rfl
  | cons c cs =>
    dsimp only
    rw [cont_eq cm he (Or.inl (by rw [hc]; simp)), if_pos ha, if_pos ha]
    rfl

theorem conf_alike {n : Node} {nt nt' : NT} {val : Bool} {ps : List (List Spec)} (h : conf n nt = true)
    (hp : prod (nt.core n.kind) = .alts val ps) (hp' : prod (nt'.core n.kind) = .alts val ps)
    (hk : (nt.core n.kind).kinds = (nt'.core n.kind).kinds) : conf n nt' = true := by
  cases n with
  | mk id kind named extra err field sr er sb eb text children =>
    rw [conf] at h ⊢
    simp only at hp hp' hk
    simp only [hp, hp', hk] at h ⊢
    exact h

/-- A type that delegates to a variant prints its bucket around it. -/
theorem wrapper_sx {v : Cls} {k : String} (C : Ctx root cm cfg bad rec l m) (hm : 8 * depth l.node + 1 < m)
    (h : conf l.node (.cls v) = true) (hk : l.kind = k) (hv : variantCls v = true) (hr : rank v = 1)
    (hq : Calm l.node) (hw : bag cm l.id = [] ∨ v ≠ .soqlWithTypeVariant) :
    W bad (New.wrapper rec k v l) (fun p => Sx (items cm p) (full cm l)) := by
  unfold New.wrapper
  have : assertCheck l k = .ok () := by simp [assertCheck, hk]
  rw [this]
  change W bad (rec v l >>= fun d => .ok (bwcp l [d])) _
  refine W_then (C.call (.variant C.reach hv h hw) (by rw [hr]; exact hm)) ?_
  intro p hp
  refine W_ok ?_
  rw [full_body C]
  obtain ⟨b, hb1, hb2⟩ := C.reach.bucket C.good
  exact sx_wrapped hb1 (C.reach.calm C.good hq hb1) hb2 _ (by rw [itemss_one]; exact hp) (punct_opt C.good C.reach)

theorem wrapped {c v : Cls} {k : String} {ps : List (List Spec)} (C : Ctx root cm cfg bad rec l m) (hm : 8 * depth l.node + 1 < m)
    (h : conf l.node (.cls c) = true) (hp : prod (.cls c) = .alts false ps) (hk : (NT.cls c).kinds = some [k]) (hs : sub c = [])
    (hp' : prod (.cls v) = .alts false ps) (hk' : (NT.cls v).kinds = some [k]) (hs' : sub v = [])
    (hv : variantCls v = true) (hr : rank v = 1) (hw : v ≠ .soqlWithTypeVariant) (hb : braceKinds.contains k = false) :
    W bad (New.wrapper rec k v l) (fun p => Sx (items cm p) (full cm l)) := by
  have hkind : l.kind = k := by
    have := (conf_node h).2 [k] (by rw [core_self hs]; exact hk)
    exact List.mem_singleton.1 this
  refine wrapper_sx C hm (conf_alike h (by rw [core_self hs]; exact hp) (by rw [core_self hs']; exact hp') (by rw [core_self hs, core_self hs', hk, hk'])) hkind hv hr ?_ (Or.inr hw)
  rcases conf_alts h (by rw [core_self hs]; exact hp) with h2 | ⟨h2, _⟩
  · cases h2.1
  · exact sane_calm h2 (by rw [show l.node.kind = k from hkind]; exact hb)

local macro "wrapper_theorem " n:ident k:str c:ident v:ident : command => `(
  theorem $n (C : Ctx root cm cfg bad rec l m) (hm : 8 * depth l.node + 1 < m) (h : conf l.node (.cls $c) = true) :
      W bad (New.wrapper rec $k $v l) (fun p => Sx (items cm p) (full cm l)) :=
    wrapped (c := $c) C hm h rfl rfl rfl rfl rfl rfl rfl rfl (by decide) rfl)

wrapper_theorem functionExpression_sx "function_expression" Cls.functionExpression Cls.functionExpressionVariant
wrapper_theorem fieldIdentifier_sx "field_identifier" Cls.fieldIdentifier Cls.fieldIdentifierVariant
wrapper_theorem geoLocationType_sx "geo_location_type" Cls.geoLocationType Cls.geoLocationTypeVariant
wrapper_theorem selectClause_sx "select_clause" Cls.selectClause Cls.selectClauseVariant
wrapper_theorem storageIdentifier_sx "storage_identifier" Cls.storageIdentifier Cls.storageIdentifierVariant
wrapper_theorem updateExpression_sx "update_expression" Cls.updateExpression Cls.updateExpressionVariant
wrapper_theorem dmlExpression_sx "dml_expression" Cls.dmlExpression Cls.dmlExpressionVariant

/-! ### The type of a `WITH` clause -/

/-- The type of a `WITH` clause is a value or the condition on a user id. -/
theorem with_cases {v : Cls} (h : conf l.node (.cls v) = true)
    (hp : prod (.cls v) = .alts true [[.one ⟨true, [none], ["with_user_id_type"], some .withUserId⟩]])
    (hk : (NT.cls v).kinds = some ["with_type"]) (hs : sub v = []) :
    (l.kind = "with_type" ∧ spelled l.node = true ∧ ∀ c ∈ l.node.children, c.named = false) ∨
    ∃ x, SatL l ⟨true, [none], ["with_user_id_type"], some .withUserId⟩ x ∧
      At l "with_type" [.one ⟨true, [none], ["with_user_id_type"], some .withUserId⟩ x] := by
  have h1 := List.mem_singleton.1 ((conf_node h).2 ["with_type"] (by rw [core_self hs]; exact hk))
  rcases conf_alts h (by rw [core_self hs]; exact hp) with ⟨_, h2, h3⟩ | ⟨h2, h3, h4, h5⟩
  · exact Or.inl ⟨h1, h2, h3⟩
  · obtain ⟨x, hx, hv⟩ := view_of (l := l) h5
    exact Or.inr ⟨x, hx, h1, h2, h3, h4, hv⟩

theorem with_calm {v : Cls} (h : conf l.node (.cls v) = true)
    (hp : prod (.cls v) = .alts true [[.one ⟨true, [none], ["with_user_id_type"], some .withUserId⟩]])
    (hk : (NT.cls v).kinds = some ["with_type"]) (hs : sub v = []) : l.kind = "with_type" ∧ Calm l.node := by
  rcases with_cases h hp hk hs with ⟨h1, h2, _⟩ | ⟨x, _, hv⟩
  · exact ⟨h1, calm_value h2⟩
  · exact ⟨hv.kind, calm_of hv rfl⟩

/-- There is no comment next to the type of a `WITH` clause. -/
theorem with_bucket (C : Ctx root cm cfg bad rec l m) (hk : l.kind = "with_type") (hc : Calm l.node) : bag cm l.id = [] := by
  have ha := C.reach.assoc C.good
  have he : l.node.extra = false := by
    simp only [Node.associable, Bool.and_eq_true, Bool.not_eq_true'] at ha
    exact ha.1
  cases C.reach with
  | root =>
    have := C.good.kind
    exact absurd (hk.symm.trans this) (by decide)
  | kid hl hs hx ha => exact hl.alone C.good hs hx ha hc (sane_with hs (mem_children_node hx) he hk)

theorem soqlWithType_sx (C : Ctx root cm cfg bad rec l m) (hm : 8 * depth l.node + 1 < m) (h : conf l.node (.cls .soqlWithType) = true) :
    W bad (New.wrapper rec "with_type" .soqlWithTypeVariant l) (fun p => Sx (items cm p) (full cm l)) := by
  obtain ⟨hk, hc⟩ := with_calm h rfl rfl rfl
  exact wrapper_sx C hm (conf_alike h (by rw [core_self rfl]; rfl) (by rw [core_self rfl]; rfl) rfl) hk rfl rfl hc
    (Or.inl (with_bucket C hk hc))

theorem conf_spelled {n : Node} (he : n.extra = false) (hs : spelled n = true) : conf n (.cls .valueNode) = true := by
  cases n with
  | mk id kind named extra err field sr er sb eb text children =>
    have he : extra = false := he
    subst he
    rw [conf]
    have e : (NT.cls .valueNode).core kind = .cls .valueNode := core_self rfl _
    have ep : prod (.cls .valueNode) = .value := rfl
    have ek : (NT.cls .valueNode).kinds = none := rfl
    simp only [e, ep, ek, hs, Bool.not_false, Bool.true_and, beq_self_eq_true, Bool.true_or]

theorem soqlWithTypeVariant_sx (C : Ctx root cm cfg bad rec l m) (hm : 8 * depth l.node < m)
    (h : conf l.node (.cls .soqlWithTypeVariant) = true) (hb : bag cm l.id = []) :
    W bad (New.soqlWithTypeVariant rec l) (fun p => Sx (items cm p) (body cm l)) := by
  rcases with_cases h rfl rfl rfl with ⟨h1, h2, h3⟩ | ⟨x, hx, hv⟩
  · have hn : l.namedChildren = [] := by
      unfold Loc.namedChildren
      rw [List.filter_eq_nil_iff]
      intro c hc
      simp [Loc.named, h3 _ (mem_children_node hc)]
    unfold New.soqlWithTypeVariant
    rw [hn, if_pos List.isEmpty_nil]
    have hc := conf_spelled (conf_node h).1 h2
    refine W_mono (C.call (.node C.reach rfl hc (by intro hk; rw [h1] at hk; exact absurd hk (by decide))) (by simpa [rank] using hm)) ?_
    intro p hp
    rw [full_body C, bcom_bag hb, acom_bag hb, C.reach.quiet cm (by rw [h1]; decide), List.append_nil, List.append_nil] at hp
    exact hp
  · unfold New.soqlWithTypeVariant
    rw [body_eq hv]
    rw [if_neg]
    · refine W_firstC hv rfl ?_
      rw [if_pos (hx.kind_eq rfl)]
      obtain ⟨x1, h1, x2, h2, x3, h3, hv'⟩ := nt_at (hx.1.2 _ rfl) rfl rfl rfl
      change At _ _ _ at hv'
      have C' := C.into hv.sane hx rfl
      refine W_cByK hv' rfl rfl ?_
      refine W_then (C'.sat hv'.sane h3 rfl rfl rfl) ?_
      intro p hp
      refine W_ok (sx_in hv rfl ?_)
      rw [List.append_nil]
      refine sx_raw C' hv' rfl (sx_in hv' rfl ?_)
      flat
      refine sx_seq2 (sx_tok2 h1 h2 (by decide) (by decide) (by decide)) ?_
      rw [List.append_nil, seqR_unit_right]
      exact hp
    · have hc : x ∈ l.namedChildren := by
        unfold Loc.namedChildren
        exact List.mem_filter.2 ⟨(mem_view.1 hx.2).1, hx.fits.1⟩
      cases e : l.namedChildren with
      | nil => rw [e] at hc; cases hc
      | cons a b => simp

/-! ### Clauses -/

theorem forClause_sx (C : Ctx root cm cfg bad rec l m) (h : conf l.node (.cls .forClause) = true) :
    W bad (New.forClause rec l) (fun p => Sx (items cm p) (bcom cm l.kind l.id ++ ((view l).drop 1).flatMap (full cm) ++ acom cm l.kind l.id ++ pcont cm l)) := by
  obtain ⟨x1, h1, x2, h2, hv⟩ := cls_at h rfl rfl rfl
  nrm
  unfold New.forClause
  repeat' stp
  rename_i p hp
  obtain ⟨b, hb1, hb2⟩ := C.reach.bucket C.good
  refine sx_wrapped hb1 (C.reach.calm C.good (calm_of hv rfl) hb1) hb2 _ ?_ (punct_opt C.good C.reach)
  rw [hv.view.1, itemss_one]
  show Sx _ (full cm x2 ++ [])
  rw [List.append_nil]
  exact hp

theorem groupByClause_sx (C : Ctx root cm cfg bad rec l m) (h : conf l.node (.cls .groupByClause) = true) :
    W bad (New.groupByClause rec l) (fun p => Sx (items cm p) (full cm l)) := by
  obtain ⟨x1, h1, x2, h2, x3, y3, h3, x4, h4, hv⟩ := cls_at h rfl rfl rfl
  nrm
  unfold New.groupByClause
  repeat' stp
  have hcv : l.childrenVec = x3 ++ x4.toList := by
    cases x4 with
    | none => rw [get_childrenVec hv.view (rfl : filterSg mT _ = some x3)]; simp
    | some y => exact get_childrenVec hv.view rfl
  have k3 : ∀ x ∈ x3, x.kind ∈ ["field_identifier", "function_expression"] := fun x hx => (h3.all x hx).fits.2.2.1
  have k4 : ∀ x ∈ x4.toList, x.kind = "having_clause" := by
    intro x hx
    have := (h4 x (by simpa using hx)).fits.2.2.1
    exact List.mem_singleton.1 this
  have f3 : l.childrenVec.filter (fun c => c.kind != "having_clause") = x3 := by
    rw [hcv, List.filter_append, List.filter_eq_self.2, List.filter_eq_nil_iff.2, List.append_nil]
    · intro x hx; simp [k4 x hx]
    · intro x hx
      have := k3 x hx
      simp only [List.mem_cons, List.not_mem_nil, or_false] at this
      rcases this with e | e <;> rw [e] <;> decide
  have f4 : l.childrenVec.filter (fun c => c.kind == "having_clause") = x4.toList := by
    rw [hcv, List.filter_append, List.filter_eq_nil_iff.2, List.filter_eq_self.2, List.nil_append]
    · intro x hx; simp [k4 x hx]
    · intro x hx
      have := k3 x hx
      simp only [List.mem_cons, List.not_mem_nil, or_false] at this
      rcases this with e | e <;> rw [e] <;> decide
  rw [if_pos, f3, f4]
  · refine W_then (W_mapR (cm := cm) (fun x hx => C.dispatch hv.sane (h3.all x hx) rfl rfl rfl (by decide) (by decide))) ?_
    intro ps hps
    cases x4 with
    | none =>
      refine W_ok ?_
      have e := hps.1
      show Sx (items cm (bwcp l ([tR "GROUP BY", Prog.intersperse ps (.s " ")] ++ []))) _
      refine sx_bwcp C hv rfl (sx_in hv rfl ?_)
      flat
      refine sx_seq2 (sx_tok2 h1 h2 (by decide) (by decide) (by decide)) ?_
      exact sx_seq e sx_unit
    | some y =>
      have hy := h4 y rfl
      refine W_then (W_mapR (cm := cm) (xs := [y]) (fun x hx => by cases List.mem_singleton.1 hx; exact C.sat hv.sane hy rfl rfl rfl)) ?_
      intro hs hhs
      match hs, hhs with
      | [q], hhs =>
        refine W_ok ?_
        have e := hps.1
        have e' := hhs.1
        rw [itemss_one, List.flatMap_cons, List.flatMap_nil, List.append_nil] at e'
        show Sx (items cm (bwcp l ([tR "GROUP BY", Prog.intersperse ps (.s " ")] ++ [.softline, q]))) _
        refine sx_bwcp C hv rfl (sx_in hv rfl ?_)
        flat
        refine sx_seq2 (sx_tok2 h1 h2 (by decide) (by decide) (by decide)) ?_
        refine sx_seq e ?_
        rw [List.append_nil, seqR_unit_right]
        exact e'
  · rw [hcv, List.all_eq_true]
    intro x hx
    rcases List.mem_append.1 hx with hx | hx
    · have := k3 x hx
      simp only [List.mem_cons, List.not_mem_nil, or_false] at this
      rcases this with e | e <;> rw [e] <;> decide
    · rw [k4 x hx]; decide

end
end Afmt.Gram
