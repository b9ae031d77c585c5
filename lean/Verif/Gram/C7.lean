import Verif.Gram.C6
import Verif.Gram.Choice

/-!
# The printed content of nodes: conditions, clauses and variants of queries (src/data_model.rs 3828-6094,
src/enum_def.rs 880-1651)
-/

namespace Afmt.Gram
open Prog New
set_option maxRecDepth 10000
section
variable {root : Node} {cm : CMap} {cfg : Cfg} {bad : Panic → Prop} {rec : Rec} {l : Loc} {m : Nat}

theorem Ctx.fits (C : Ctx root cm cfg bad rec l m) {x : Loc} (h : x ∈ view l) (c : Cls) : 8 * depth x.node + rank c ≤ m := by
  have h1 := depth_view h
  have h2 := C.size
  have h3 := rank_le c
  omega

/-- A constructor looks at the kind of a child. -/
theorem Ctx.dispatch (C : Ctx root cm cfg bad rec l m) (hs : sane l.kind l.node.children = true) {c : Cls} {a : Atom} {x : Loc}
    {tbl : List (String × Cls)} (hx : SatL l a x) (hnt : a.nt = some (.cls c)) (hb : bucketAtom a = true)
    (hk : (NT.cls c).kinds = some []) (hw : stepwise c = true)
    (ht : (sub c).all (fun e => tbl.find? (fun d => d.1 == e.1) == some e) = true) :
    W bad (dispatch rec tbl x) (fun p => Sx (items cm p) (full cm x)) :=
  dispatch_sx (C.into hs hx hb) (hx.body hb) (C.fits hx.2 c) (hx.1.2 _ hnt) hk hw ht

/-- A constructor finds the kind of a child in its table. -/
theorem Ctx.pick (C : Ctx root cm cfg bad rec l m) (hs : sane l.kind l.node.children = true) {c : Cls} {a : Atom} {x : Loc}
    {k : String} {tbl : List (String × Cls)} (hx : SatL l a x) (hnt : a.nt = some (.cls c)) (hb : bucketAtom a = true)
    (hp : plainCls c = true) (hk : a.kinds = [k]) (ht : tbl.find? (fun d => d.1 == k) = some (k, c)) :
    W bad (New.dispatch rec tbl x) (fun p => Sx (items cm p) (full cm x)) := by
  have : x.kind = k := by
    have := hx.fits.2.2.1
    rw [hk] at this
    exact List.mem_singleton.1 this
  rw [New.dispatch, this, ht]
  exact C.sat hs hx hnt hb hp

/-- Content of a node whose bucket is not printed and which is not followed by punctuation. -/
theorem sx_unwrapped {k : String} {sgs : List (Sg Loc)} (C : Ctx root cm cfg bad rec l m) (hv : At l k sgs) {r : Res2}
    (hp : pcont cm l = []) (hm : Sx r (inner cm l)) : Sx r (full cm l) := by
  rw [full_eq C hv, hp, List.append_nil]
  exact sx_inside hm (codeC_bcom _ _ _) (codeC_acom _ _ _)

theorem offsetClause_sx (C : Ctx root cm cfg bad rec l m) (h : conf l.node (.cls .offsetClause) = true) :
    W bad (New.offsetClause rec l) (fun p => Sx (items cm p) (full cm l)) := by
  obtain ⟨x1, h1, x2, h2, hv⟩ := cls_at h rfl rfl rfl
  nrm
  unfold New.offsetClause
  repeat' stp
  refine W_then (C.dispatch hv.sane h2 rfl rfl rfl (by decide) (by decide)) ?_
  intro p hp
  refine W_ok (sx_raw C hv rfl ?_)
  inn

theorem withDivisionExpression_sx (C : Ctx root cm cfg bad rec l m) (h : conf l.node (.cls .withDivisionExpression) = true) :
    W bad (New.withDivisionExpression rec l) (fun p => Sx (items cm p) (full cm l)) := by
  rcases cls_at h rfl rfl rfl with ⟨x1, h1, x2, h2, x3, h3, hv⟩ | ⟨x1, h1, x2, h2, x3, h3, hv⟩
  · nrm
    unfold New.withDivisionExpression
    repeat' stp
    rw [if_pos (h3.kind_eq rfl)]
    repeat' stp
    refine sx_raw C hv rfl ?_
    inn
  · nrm
    unfold New.withDivisionExpression
    repeat' stp
    rw [if_neg (h3.kind_ne rfl), if_pos (h3.kind_eq rfl)]
    refine W_ok (sx_raw C hv rfl ?_)
    have e3 := sx_ident (cm := cm) h3 (pcont_last hv.nexts.2.2.1)
    apply sx_in hv rfl
    flat
    refine sx_seq2 (sx_tok2 h1 h2 (by decide) (by decide) (by decide)) ?_
    rw [List.append_nil, seqR_unit_right]
    exact e3

theorem soslWithType_sx (C : Ctx root cm cfg bad rec l m) (h : conf l.node (.cls .soslWithType) = true) :
    W bad (New.soslWithType rec l) (fun p => Sx (items cm p) (full cm l)) := by
  rcases cls_at h rfl rfl rfl with ⟨x1, h1, hv⟩ | ⟨x1, h1, hv⟩ | ⟨x1, h1, hv⟩ | ⟨x1, h1, hv⟩ | ⟨x1, h1, hv⟩ | ⟨x1, h1, hv⟩ |
    ⟨x1, h1, hv⟩ | ⟨x1, h1, hv⟩
  · nrm
    unfold New.soslWithType
    repeat' stp
    rw [if_pos (h1.kind_eq rfl)]
    refine W_ok (sx_raw C hv rfl (sx_in hv rfl ?_))
    rw [List.append_nil]
    obtain ⟨h2, h3, e, he, _, h4⟩ := conf_words (h1.1.2 _ rfl) rfl
    cases List.mem_singleton.1 he
    refine sx_text h2 (pcont_last hv.nexts.1) (SameL.cased h2 h3 ?_)
    exact h4.symm
  all_goals
    nrm
    unfold New.soslWithType
    repeat' stp
    rw [if_neg (h1.kind_ne rfl)]
    refine W_mono (C.pick hv.sane h1 rfl rfl rfl rfl rfl) ?_
    intro p hp
    refine sx_raw C hv rfl (sx_in hv rfl ?_)
    rw [List.append_nil]
    exact hp

/-! ### Comparisons -/

theorem sx_operator {f : List (Option String)} {ks : List String} {b : Bool} {x : Loc} (h : SatL l ⟨b, f, ks, some (.cls .valueNode)⟩ x)
    (hp : pcont cm x = []) : Sx (items cm (Prog.txtLR x.value)) (full cm x) := by
  unfold Prog.txtLR
  refine sx_text h.spelled hp ?_
  have := SameL.spelled h.spelled
  rw [show letters false (' ' :: (x.value ++ [' '])) = letters false (x.value ++ [' ']) from rfl, letters_space]
  exact this

theorem comparison_sx {a o v : Atom} {x y z : Loc} (C : Ctx root cm cfg bad rec l m) (hs : sane l.kind l.node.children = true)
    (hv : View l [.one a x, .one o y, .one v z]) (ha : a ∈ [k0 .valueExpression, tok "NETWORK"])
    (ht : [Spec.one o, Spec.one v] ∈ comparisonTails) :
    W bad (New.comparison rec l) (fun p => Sx (items cm p) (full cm y ++ full cm z)) := by
  have hp := plain_of_sane hs
  have hy : SatL l o y := hv.2 (.one o y) (by simp)
  have hz : SatL l v z := hv.2 (.one v z) (by simp)
  have hn : Nexts [x, y, z] := by have := view_nexts l; rw [hv.1] at this; exact this
  have hzn : z.node.named = true → y.nextNamed = .ok z := by
    intro hz1
    have h1 : nexts y = [z] := hn.2.1
    unfold Loc.nextNamed
    have h2 : (nexts y).find? (fun c => c.named) = some z := by
      rw [h1]; simp [Loc.named, hz1]
    rw [nexts, find_filter] at h2
    have : (fun c : Loc => !c.extra && c.named) = (fun c : Loc => c.named && !c.extra) := by
      funext c; exact Bool.and_comm _ _
    rw [this] at h2
    rw [h2]
  have hz2 : ∀ {K : Loc → R Prog} {Q}, z.node.named = true → W bad (K z) Q → W bad (y.nextNamed >>= K) Q := by
    intro K Q h1 h2
    rw [hzn h1]
    exact h2
  unfold New.comparison
  simp only [List.mem_cons, List.not_mem_nil, or_false] at ha
  rw [comparisonTails] at ht
  have fin : ∀ {p : Prog} {f : List (Option String)} {ks : List String}, o = ⟨true, f, ks, some (.cls .valueNode)⟩ →
      isPunctuationKind z.kind = false → Sx (items cm p) (full cm z) →
      Sx (items cm (.concat [Prog.txtLR y.value, p])) (full cm y ++ full cm z) := by
    intro p f ks ho hzk hp
    subst ho
    flat
    rw [seqR_unit_right]
    exact sx_seq (sx_operator hy (pcont_of hn.2.1 hzk)) hp
  rcases ht with _ | ⟨_, _ | ⟨_, _ | ⟨_, h⟩⟩⟩
  · have e : l.tryCByK "value_comparison_operator" = some y := by
      rcases ha with rfl | rfl <;> exact get_tryCByK hp hv rfl rfl
    rw [e]
    dsimp only
    refine hz2 hz.fits.1 ?_
    rw [if_pos (hz.kind_eq rfl)]
    refine W_then (C.sat hs hz rfl rfl rfl) ?_
    intro p hp
    exact W_ok (fin rfl (hz.punct rfl) hp)
  · have e : l.tryCByK "value_comparison_operator" = some y := by
      rcases ha with rfl | rfl <;> exact get_tryCByK hp hv rfl rfl
    rw [e]
    dsimp only
    refine hz2 hz.fits.1 ?_
    rw [if_neg (hz.kind_ne rfl)]
    refine W_then (C.sat hs hz rfl rfl rfl) ?_
    intro p hp
    exact W_ok (fin rfl (hz.punct rfl) hp)
  · have e : l.tryCByK "value_comparison_operator" = none := by
      rcases ha with rfl | rfl <;> exact get_tryCByK hp hv rfl rfl
    have e' : l.tryCByK "set_comparison_operator" = some y := by
      rcases ha with rfl | rfl <;> exact get_tryCByK hp hv rfl rfl
    rw [e]
    dsimp only
    rw [e']
    dsimp only
    refine hz2 hz.fits.1 ?_
    refine W_then (C.sat hs hz rfl rfl rfl) ?_
    intro p hp
    exact W_ok (fin rfl (hz.punct rfl) hp)
  · cases h

theorem comparisonExpression_sx (C : Ctx root cm cfg bad rec l m) (hm : 8 * depth l.node < m) (h : conf l.node (.cls .comparisonExpression) = true) :
    W bad (New.comparisonExpression rec l) (fun p => Sx (items cm p) (full cm l)) := by
  rcases cls_at h rfl rfl rfl with ⟨x1, h1, x2, h2, x3, h3, hv⟩ | ⟨x1, h1, x2, h2, x3, h3, hv⟩ | ⟨x1, h1, x2, h2, x3, h3, hv⟩
  all_goals
    nrm
    unfold New.comparisonExpression
    repeat' stp
    refine W_then (C.call (.comparison C.reach hv.sane hv.view (by simp) (by simp [comparisonTails])) hm) ?_
    intro c hc
    refine W_ok (sx_bwcp C hv rfl (sx_in hv rfl ?_))
    flat
    refine sx_seq (by assumption) ?_
    rw [List.append_nil, seqR_unit_right]
    exact hc

theorem withNetworkExpression_sx (C : Ctx root cm cfg bad rec l m) (hm : 8 * depth l.node < m) (h : conf l.node (.cls .withNetworkExpression) = true) :
    W bad (New.withNetworkExpression rec l) (fun p => Sx (items cm p) (full cm l)) := by
  rcases cls_at h rfl rfl rfl with ⟨x1, h1, x2, h2, x3, h3, hv⟩ | ⟨x1, h1, x2, h2, x3, h3, hv⟩ | ⟨x1, h1, x2, h2, x3, h3, hv⟩
  all_goals
    nrm
    unfold New.withNetworkExpression
    repeat' stp
    refine W_then (C.call (.comparison C.reach hv.sane hv.view (by simp) (by simp [comparisonTails])) hm) ?_
    intro c hc
    refine W_ok (sx_bwcp C hv rfl (sx_in hv rfl ?_))
    flat
    refine sx_seq (sx_tok h1 (by decide)) ?_
    rw [List.append_nil, seqR_unit_right]
    exact hc

/-! ### Conditions -/

theorem Ctx.comparisonOperand (C : Ctx root cm cfg bad rec l m) (hs : sane l.kind l.node.children = true) {a : Atom} {x : Loc}
    (hx : SatL l a x) (hnt : a.nt = some (.cls .booleanExpression)) (hb : bucketAtom a = true) (hk : x.kind = "comparison_expression") :
    W bad (rec .comparisonExpression x) (fun p => Sx (items cm p) (full cm x)) := by
  obtain ⟨e, he, hek, _, hw⟩ := choice_sx (c := .booleanExpression) (C.into hs hx hb) (hx.body hb) (C.fits hx.2 _) (hx.1.2 _ hnt) rfl (by decide)
  rw [hk] at hek
  rcases he with _ | ⟨_, _ | ⟨_, _ | ⟨_, _ | ⟨_, h⟩⟩⟩⟩
  · exact absurd hek (by decide)
  · exact absurd hek (by decide)
  · exact absurd hek (by decide)
  · exact hw
  · cases h

theorem condition_bare (C : Ctx root cm cfg bad rec l m) (hs : sane l.kind l.node.children = true) {a : Atom} {x : Loc} {op : String}
    (hx : SatL l a x) (hnt : a.nt = some (.cls .booleanExpression)) (hb : bucketAtom a = true)
    (hk : x.kind = "comparison_expression" ∨ (x.kind ≠ "comparison_expression" ∧ boolOperator x = some op)) :
    W bad (New.conditionExpression rec (some op) x) (fun p => Sx (items cm p) (full cm x)) := by
  unfold New.conditionExpression
  rcases hk with hk | ⟨hk, ho⟩
  · rw [if_pos hk]
    exact C.comparisonOperand hs hx hnt hb hk
  · rw [if_neg hk]
    refine W_then (C.sat hs hx hnt hb rfl) ?_
    intro p hp
    rw [ho]
    simp only [shouldParenthesize, beq_self_eq_true, Bool.not_true, Bool.false_eq_true, if_false]
    exact W_ok hp

theorem condition_par (C : Ctx root cm cfg bad rec l m) (hs : sane l.kind l.node.children = true) {a : Atom} {x y z : Loc} {op o : String}
    (hy : SatL l (tok "(") y) (hx : SatL l a x) (hz : SatL l (tok ")") z) (hnt : a.nt = some (.cls .booleanExpression))
    (hb : bucketAtom a = true) (hk : x.kind ≠ "comparison_expression") (ho : boolOperator x = some o) (hne : op ≠ o) :
    W bad (New.conditionExpression rec (some op) x)
      (fun p => Sx (items cm p) (cont cm y.node ++ (full cm x ++ (cont cm z.node ++ [])))) := by
  unfold New.conditionExpression
  rw [if_neg hk]
  refine W_then (C.sat hs hx hnt hb rfl) ?_
  intro p hp
  rw [ho, if_pos (by simp [shouldParenthesize, hne])]
  refine W_ok ?_
  flat
  exact sx_seq (sx_tok hy (by decide)) (sx_seq hp (sx_seq (sx_tok hz (by decide)) sx_unit))

theorem SatL.kinds2 {a : Atom} {x : Loc} {k k' : String} (h : SatL l a x) (hk : a.kinds = [k, k']) : x.kind = k ∨ x.kind = k' := by
  have := h.fits.2.2.1
  rw [hk] at this
  simpa [Loc.kind] using this

theorem andExpression_sx (C : Ctx root cm cfg bad rec l m) (h : conf l.node (.cls .andExpression) = true) :
    W bad (New.andExpression rec l) (fun p => Sx (items cm p) (full cm l)) := by
  obtain ⟨x1, y1, h1, hv⟩ := cls_at h rfl rfl rfl
  nrm
  unfold New.andExpression
  refine W_assert hv ?_
  rw [get_childrenVec hv.view (rfl : filterSg mT _ = some x1)]
  refine W_then (W_condsep (cm := cm) (sep := .before .softline "AND ") h1 ?_ ?_) ?_
  · intro x w hw
    cases hw with
    | bare hx =>
      rw [List.flatMap_cons, List.flatMap_nil, List.append_nil, fc_named hx rfl]
      refine condition_bare C hv.sane hx rfl rfl ?_
      rcases hx.kinds2 rfl with hk | hk
      · exact Or.inl hk
      · exact Or.inr ⟨by rw [hk]; decide, by rw [boolOperator, if_pos hk]⟩
    | par hy hx hz =>
      simp only [List.flatMap_cons, List.flatMap_nil]
      rw [fc_tok hy, fc_named hx rfl, fc_tok hz]
      rcases hx.kinds2 rfl with hk | hk
      · exact condition_par C hv.sane hy hx hz rfl rfl (by rw [hk]; decide) (o := "OR") (by rw [boolOperator, hk]; decide) (by decide)
      · exact condition_par C hv.sane hy hx hz rfl rfl (by rw [hk]; decide) (o := "NOT") (by rw [boolOperator, hk]; decide) (by decide)
  · intro x hx
    rw [fc_tok hx]
    show Sx (itemss cm [.softline, t "AND "]) _
    flat
    rw [seqR_unit_right]
    exact sx_tok hx (by decide)
  · intro ps hps
    refine W_ok (sx_bwcp C hv rfl (sx_in hv rfl ?_))
    rw [itemss_one, List.append_nil]
    cases ps with
    | nil => exact absurd rfl hps.1
    | cons p ps => rw [items_inter]; exact hps.2

theorem orExpression_sx (C : Ctx root cm cfg bad rec l m) (h : conf l.node (.cls .orExpression) = true) :
    W bad (New.orExpression rec l) (fun p => Sx (items cm p) (full cm l)) := by
  obtain ⟨x1, y1, h1, hv⟩ := cls_at h rfl rfl rfl
  nrm
  unfold New.orExpression
  refine W_assert hv ?_
  rw [get_childrenVec hv.view (rfl : filterSg mT _ = some x1)]
  refine W_then (W_condsep (cm := cm) (sep := .before .softline "OR ") h1 ?_ ?_) ?_
  · intro x w hw
    cases hw with
    | bare hx =>
      rw [List.flatMap_cons, List.flatMap_nil, List.append_nil, fc_named hx rfl]
      refine condition_bare C hv.sane hx rfl rfl ?_
      rcases hx.kinds2 rfl with hk | hk
      · exact Or.inl hk
      · exact Or.inr ⟨by rw [hk]; decide, by rw [boolOperator, hk]; decide⟩
    | par hy hx hz =>
      simp only [List.flatMap_cons, List.flatMap_nil]
      rw [fc_tok hy, fc_named hx rfl, fc_tok hz]
      rcases hx.kinds2 rfl with hk | hk
      · exact condition_par C hv.sane hy hx hz rfl rfl (by rw [hk]; decide) (o := "AND") (by rw [boolOperator, hk]; decide) (by decide)
      · exact condition_par C hv.sane hy hx hz rfl rfl (by rw [hk]; decide) (o := "NOT") (by rw [boolOperator, hk]; decide) (by decide)
  · intro x hx
    rw [fc_tok hx]
    show Sx (itemss cm [.softline, t "OR "]) _
    flat
    rw [seqR_unit_right]
    exact sx_tok hx (by decide)
  · intro ps hps
    refine W_ok (sx_bwcp C hv rfl (sx_in hv rfl ?_))
    rw [itemss_one, List.append_nil]
    cases ps with
    | nil => exact absurd rfl hps.1
    | cons p ps => rw [items_inter]; exact hps.2

theorem notExpression_sx (C : Ctx root cm cfg bad rec l m) (h : conf l.node (.cls .notExpression) = true) :
    W bad (New.notExpression rec l) (fun p => Sx (items cm p) (full cm l)) := by
  rcases cls_at h rfl rfl rfl with ⟨x1, h1, x2, h2, hv⟩ | ⟨x1, h1, x2, h2, x3, h3, x4, h4, hv⟩
  · nrm
    unfold New.notExpression
    repeat' stp
    refine W_then (condition_bare C hv.sane h2 rfl rfl ?_) ?_
    · rcases h2.kinds2 rfl with hk | hk
      · exact Or.inl hk
      · exact Or.inr ⟨by rw [hk]; decide, by rw [boolOperator, hk]; decide⟩
    · intro p hp
      refine W_ok ?_
      fin
  · nrm
    unfold New.notExpression
    repeat' stp
    have key : ∃ o, boolOperator x3 = some o ∧ "NOT" ≠ o ∧ x3.kind ≠ "comparison_expression" := by
      rcases h3.kinds2 rfl with hk | hk
      · exact ⟨"AND", by rw [boolOperator, hk]; decide, by decide, by rw [hk]; decide⟩
      · exact ⟨"OR", by rw [boolOperator, hk]; decide, by decide, by rw [hk]; decide⟩
    obtain ⟨o, ho, hne, hk⟩ := key
    refine W_then (condition_par C hv.sane h2 h3 h4 rfl rfl hk ho hne) ?_
    intro p hp
    refine W_ok (sx_bwcp C hv rfl (sx_in hv rfl ?_))
    flat
    refine sx_seq (sx_tok h1 (by decide)) ?_
    rw [seqR_unit_right]
    exact hp

end
end Afmt.Gram
