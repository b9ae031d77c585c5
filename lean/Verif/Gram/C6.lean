import Verif.Gram.C5

/-!
# The printed content of nodes: queries (src/data_model.rs 3828-6094, src/enum_def.rs 880-1651)
-/

namespace Afmt.Gram
open Prog New
set_option maxRecDepth 10000
section
variable {root : Node} {cm : CMap} {cfg : Cfg} {bad : Panic → Prop} {rec : Rec} {l : Loc} {m : Nat}

/-! ### Separators that are no punctuation -/

theorem items_inter (p : Prog) (ps : List Prog) (sep : Ins) :
    items cm (Prog.intersperse (p :: ps) sep) = itemss cm (Prog.intersperseParts sep (p :: ps)) := by
  cases ps with
  | nil => rw [Prog.intersperse, items_concat]; simp
  | cons q qs => rw [Prog.intersperse, items_concat]; simp

theorem W_condsep {f : Loc → R Prog} {op : Loc → List Loc → Prop} {s : Loc → Prop} {sep : Ins} {xs vs : List Loc}
    (h : CondSep op s xs vs) (hf : ∀ x w, op x w → W bad (f x) (fun p => Sx (items cm p) (w.flatMap (fc cm))))
    (hs : ∀ x, s x → Sx (itemss cm sep.progs) (fc cm x)) :
    W bad (mapR f xs) (fun ps => ps ≠ [] ∧ Sx (itemss cm (Prog.intersperseParts sep ps)) (vs.flatMap (fc cm))) := by
  induction h with
  | one hx =>
    have h1 := hf _ _ hx
    unfold mapR mapR
    split
    · rename_i e; rw [e] at h1; exact h1
    · rename_i p e
      rw [e] at h1
      exact ⟨by simp, by rw [Prog.intersperseParts, itemss_one]; exact h1⟩
  | cons hx ht _ ih =>
    rename_i x w t xs vs hc
    have h1 := hf _ _ hx
    unfold mapR
    split
    · rename_i e; rw [e] at h1; exact h1
    · rename_i p e
      rw [e] at h1
      split
      · rename_i e'; rw [e'] at ih; exact ih
      · rename_i ps e'
        rw [e'] at ih
        refine ⟨by simp, ?_⟩
        cases ps with
        | nil => exact absurd rfl ih.1
        | cons q qs =>
          rw [Prog.intersperseParts]
          · rw [itemss_cons, itemss_append, List.flatMap_append, List.flatMap_cons]
            exact sx_seq h1 (sx_seq (hs _ ht) ih.2)
          · simp

theorem Sep.cond {α : Type} {a s : α → Prop} {xs vs : List α} (h : Sep a s xs vs) : CondSep (fun x w => a x ∧ w = [x]) s xs vs := by
  induction h with
  | one h => exact .one ⟨h, rfl⟩
  | cons h1 h2 _ ih => exact .cons (w := [_]) ⟨h1, rfl⟩ h2 ih

theorem W_sep {β : Type} (C : Ctx root cm cfg bad rec l m) (hs : sane l.kind l.node.children = true) {c : Cls} {sep : Ins} {a : Atom}
    {k : String} {xs vs : List Loc} {K : List Prog → R β} {Q : β → Prop} (hx : Sep (SatL l a) (SatL l (tok k)) xs vs)
    (hnt : a.nt = some (.cls c)) (hn : a.named = true) (hb : bucketAtom a = true) (hp : plainCls c = true)
    (hsep : ∀ x, SatL l (tok k) x → Sx (itemss cm sep.progs) (cont cm x.node))
    (h : ∀ ps, Sx (items cm (Prog.intersperse ps sep)) (vs.flatMap (fc cm)) → W bad (K ps) Q) :
    W bad (mapR (rec c) xs >>= K) Q := by
  refine W_then (W_condsep (cm := cm) (sep := sep) hx.cond ?_ ?_) ?_
  · rintro x _ ⟨h1, rfl⟩
    rw [List.flatMap_cons, List.flatMap_nil, List.append_nil, fc_named h1 hn]
    exact C.sat hs h1 hnt hb hp
  · intro x h1
    rw [fc_tok h1]
    exact hsep x h1
  · intro ps hps
    cases ps with
    | nil => exact absurd rfl hps.1
    | cons p ps => exact h _ (by rw [items_inter]; exact hps.2)

theorem dottedIdentifier_sx (C : Ctx root cm cfg bad rec l m) (h : conf l.node (.cls .dottedIdentifier) = true) :
    W bad (New.dottedIdentifier rec l) (fun p => Sx (items cm p) (full cm l)) := by
  obtain ⟨x1, y1, h1, hv⟩ := cls_at h rfl rfl rfl
  nrm
  unfold New.dottedIdentifier
  refine W_assert hv ?_
  refine W_csByK hv rfl rfl h1.ne ?_
  refine W_sep (sep := .s ".") C hv.sane h1 rfl rfl rfl rfl ?_ ?_
  · intro x hx
    show Sx (itemss cm [t "."]) _
    rw [itemss_one]
    exact sx_tok hx (by decide)
  · intro ps hps
    refine W_ok (sx_bwcp C hv rfl (sx_in hv rfl ?_))
    rw [itemss_one, List.append_nil]
    exact hps

theorem withDataCatExpression_sx (C : Ctx root cm cfg bad rec l m) (h : conf l.node (.cls .withDataCatExpression) = true) :
    W bad (New.withDataCatExpression rec l) (fun p => Sx (items cm p) (full cm l)) := by
  obtain ⟨x1, h1, x2, h2, x3, y3, h3, hv⟩ := cls_at h rfl rfl rfl
  nrm
  unfold New.withDataCatExpression
  refine W_assert hv ?_
  refine W_csByK hv rfl rfl h3.ne ?_
  refine W_sep (sep := .before .softline "AND ") C hv.sane h3 rfl rfl rfl rfl ?_ ?_
  · intro x hx
    show Sx (itemss cm [.softline, t "AND "]) _
    flat
    rw [seqR_unit_right]
    exact sx_tok hx (by decide)
  · intro ps hps
    refine W_ok (sx_bwcp C hv rfl (sx_in hv rfl ?_))
    simp only [itemss_cons, itemss_nil, items_indent]
    flat
    refine sx_seq2 (sx_tok2 h1 h2 (by decide) (by decide) (by decide)) ?_
    rw [List.append_nil, seqR_unit_right]
    exact hps

/-! ### Texts put together from several nodes -/

theorem sx_glue {a b : Str} {K L : Cont} (hab : (endsWord false a && headWord b) = false) (h : Sx (items cm (.txt a)) K) (h' : Sx (items cm (.txt b)) L) :
    Sx (items cm (.txt (a ++ b))) (K ++ L) := by
  obtain ⟨is, log, k', e, h1⟩ := sx_seq h h'
  have e1 : seqR (items cm (.txt a)) (items cm (.txt b)) = .ok ((codeItem a).map .inl ++ (codeItem b).map .inl, [] ++ []) := by
    simp only [items]
    rfl
  rw [e1] at e
  cases e
  refine ⟨(codeItem (a ++ b)).map .inl, [], k', by rw [items], ?_⟩
  rw [flatI_append, flatI_codeItem, flatI_codeItem] at h1
  rw [flatI_codeItem, letters_join hab, List.map_append]
  exact h1

theorem Ctx.into (C : Ctx root cm cfg bad rec l m) (hs : sane l.kind l.node.children = true) {a : Atom} {x : Loc} (h : SatL l a x)
    (hb : bucketAtom a = true) : Ctx root cm cfg bad rec x m :=
  ⟨C.good, C.cfgcm, C.arith, C.reachKid hs h.2 (h.assoc hb), C.call, by
    have h1 := depth_view h.2
    have h2 := C.size
    omega⟩

theorem dateLiteralWithParam_sx (C : Ctx root cm cfg bad rec l m) (h : conf l.node (.cls .dateLiteralWithParam) = true) :
    W bad (New.dateLiteralWithParam l) (fun p => Sx (items cm p) (full cm l)) := by
  obtain ⟨x1, h1, x2, h2, x3, h3, hv⟩ := cls_at h rfl rfl rfl
  nrm
  unfold New.dateLiteralWithParam
  repeat' stp
  have e1 : Sx (items cm (.txt (toUpper x1.value))) (full cm x1) := by
    have hs := core_leaf rfl (h1.1.2 _ rfl) rfl
    refine sx_text hs.1 (pcont_of hv.nexts.1 (h2.punct rfl)) (SameL.cased hs.1 ?_ (fold_letters_upper _))
    rcases hs.2 with h | h | h
    · cases h
    · cases h
    · exact h
  have e3 := sx_ident (cm := cm) h3 (pcont_last hv.nexts.2.2.1)
  refine sx_bwcp C hv rfl (sx_in hv rfl ?_)
  rw [itemss_one, List.append_nil]
  exact sx_glue (Bool.and_false _) e1 (sx_glue (a := [':']) rfl (sx_tok h2 (by decide)) e3)

theorem findClause_sx (C : Ctx root cm cfg bad rec l m) (h : conf l.node (.cls .findClause) = true) :
    W bad (New.findClause rec l) (fun p => Sx (items cm p) (full cm l)) := by
  rcases cls_at h rfl rfl rfl with ⟨x1, h1, x2, h2, hv⟩ | ⟨x1, h1, x2, h2, x3, h3, x4, h4, hv⟩
  · nrm
    unfold New.findClause
    repeat' stp
    rw [get_tryCByK hv.plain hv.view rfl (rfl : findSg (kT "bound_apex_expression") _ = some (some x2))]
    dsimp only
    repeat' stp
    refine sx_raw C hv rfl ?_
    inn
  · nrm
    unfold New.findClause
    repeat' stp
    rw [get_tryCByK hv.plain hv.view rfl (rfl : findSg (kT "bound_apex_expression") _ = some none)]
    dsimp only
    repeat' stp
    refine sx_raw C hv rfl ?_
    have e3 := sx_ident (cm := cm) h3 (pcont_of hv.nexts.2.2.1 (h4.punct rfl))
    have e := sx_glue (a := ['\'']) rfl (sx_tok (cm := cm) h2 (by decide)) (sx_glue (b := ['\'']) (Bool.and_false _) e3 (sx_tok (w := ['\'']) h4 (by decide)))
    apply sx_in hv rfl
    flat
    refine sx_seq (sx_tok h1 (by decide)) ?_
    rw [List.append_nil, seqR_unit_right]
    exact e

theorem queryExpression_sx (C : Ctx root cm cfg bad rec l m) (h : conf l.node (.cls .queryExpression) = true) :
    W bad (New.queryExpression rec l) (fun p => Sx (items cm p) (full cm l)) := by
  rcases cls_at h rfl rfl rfl with ⟨x1, h1, x2, h2, x3, h3, hv⟩ | ⟨x1, h1, x2, h2, x3, h3, hv⟩
  · nrm
    unfold New.queryExpression
    repeat' stp
    rw [get_tryCByK hv.plain hv.view rfl (rfl : findSg (kT "soql_query_body") _ = some (some x2))]
    dsimp only
    repeat' stp
    obtain ⟨ctx, hc⟩ := chaining_ok C hv (by decide)
    rw [hc]
    refine W_ok (sx_bwcp C hv rfl ?_)
    split <;> inn
  · nrm
    unfold New.queryExpression
    repeat' stp
    rw [get_tryCByK hv.plain hv.view rfl (rfl : findSg (kT "soql_query_body") _ = some none)]
    dsimp only
    rw [Loc.cByK, get_tryCByK hv.plain hv.view rfl (rfl : findSg (kT "sosl_query_body") _ = some (some x2))]
    refine W_then (P := fun p => Sx (items cm p) (full cm x2)) (C.sat hv.sane h2 rfl rfl rfl) ?_
    intro p hp
    obtain ⟨ctx, hc⟩ := chaining_ok C hv (by decide)
    rw [hc]
    refine W_ok (sx_bwcp C hv rfl ?_)
    split <;> inn

theorem mapKeyInitializer_sx (C : Ctx root cm cfg bad rec l m) (h : conf l.node (.cls .mapKeyInitializer) = true) :
    W bad (New.mapKeyInitializer rec l) (fun p => Sx (items cm p) (full cm l)) := by
  obtain ⟨x1, h1, x2, h2, x3, h3, hv⟩ := cls_at h rfl rfl rfl
  nrm
  unfold New.mapKeyInitializer
  repeat' stp
  rw [get_childrenVec hv.view (rfl : filterSg mT _ = some [x1, x3])]
  dsimp only
  repeat' stp
  fin

theorem allRowsClause_sx (C : Ctx root cm cfg bad rec l m) (h : conf l.node (.cls .allRowsClause) = true) :
    W bad (New.allRowsClause l) (fun p => Sx (items cm p) (full cm l)) := by
  obtain ⟨x1, h1, x2, h2, hv⟩ := cls_at h rfl rfl rfl
  nrm
  unfold New.allRowsClause
  repeat' stp
  fin

theorem withDataCatFilter_sx (C : Ctx root cm cfg bad rec l m) (h : conf l.node (.cls .withDataCatFilter) = true) :
    W bad (New.withDataCatFilter rec l) (fun p => Sx (items cm p) (full cm l)) := by
  rcases cls_at h rfl rfl rfl with ⟨x1, h1, x2, h2, x3, h3, hv⟩ | ⟨x1, h1, x2, h2, x3, h3, x4, h4, x5, h5, x6, y6, h6, x7, h7, hv⟩
  · nrm
    unfold New.withDataCatFilter
    repeat' stp
    rename_i p hp
    refine W_map C hv.sane (xs := [x3]) (a := v0 ["identifier"]) (by simpa using h3) rfl rfl rfl ?_
    intro ps hps hl
    match ps, hl with
    | [q], _ =>
      rw [itemss_one] at hps
      simp only [List.flatMap_cons, List.flatMap_nil, List.append_nil] at hps
      repeat' stp
      fin
  · nrm
    unfold New.withDataCatFilter
    repeat' stp
    rename_i p hp
    cases x6 with
    | nil => exact absurd rfl h6.ne
    | cons z zs =>
    refine W_map C hv.sane (xs := x4 :: z :: zs) (a := v0 ["identifier"]) (List.forall_mem_cons.2 ⟨h4, h6.all⟩) rfl rfl rfl ?_
    intro ps hps hl
    match ps, hl with
    | q :: r :: qs, _ =>
      repeat' stp
      dsimp only
      generalize q :: r :: qs = ps at *
      fin
      have := sx_seq hps (sx_seq (sx_tok (cm := cm) (w := [')']) h7 (by decide)) sx_unit)
      rw [List.flatMap_cons, List.flatMap_cons, List.append_assoc, List.append_assoc] at this
      exact this

end
end Afmt.Gram
