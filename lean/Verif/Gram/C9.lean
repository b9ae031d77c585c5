import Verif.Gram.C8

/-!
# The printed content of nodes: bodies of queries (src/data_model.rs 4080-4280)
-/

namespace Afmt.Gram
open Prog New
set_option maxRecDepth 10000
section
variable {root : Node} {cm : CMap} {cfg : Cfg} {bad : Panic → Prop} {rec : Rec} {l : Loc} {m : Nat}

theorem W_single {β : Type} {f : Loc → R Prog} {x : Loc} {K : List Prog → R β} {Q : β → Prop} {P : Prog → Prop} (h : W bad (f x) P)
    (hK : ∀ p, P p → W bad (K [p]) Q) : W bad (mapR f [x] >>= K) Q := by
  cases hf : f x with
  | error e =>
    rw [hf] at h
    simp only [mapR, hf]
    exact h
  | ok p =>
    rw [hf] at h
    simp only [mapR, hf]
    exact hK p h

theorem soqlQueryBody_sx (C : Ctx root cm cfg bad rec l m) (h : conf l.node (.cls .soqlQueryBody) = true) :
    W bad (New.soqlQueryBody rec l) (fun p => Sx (items cm p) (full cm l)) := by
  obtain ⟨x1, h1, x2, h2, x3, h3, x4, h4, x5, h5, x6, h6, x7, h7, x8, h8, x9, h9, x10, h10, hv⟩ := cls_at h rfl rfl rfl
  nrm
  unfold New.soqlQueryBody
  repeat' stp
  cases x10 with
  | none =>
    change W bad (mapR (rec .forClause) [] >>= _) _
    refine W_then (P := fun ps => ps = []) (W_ok rfl) ?_
    rintro _ rfl
    rw [if_pos List.isEmpty_nil]
    repeat' stp
    fin
  | some y =>
    have hy := h10 y rfl
    change W bad (mapR (rec .forClause) [y] >>= _) _
    have C' := C.into hv.sane hy rfl
    refine W_single (C.call (.forClause C'.reach (hy.1.2 _ rfl)) ?_) ?_
    · have := C.fits hy.2 .forClause
      have := depth_view hy.2
      have := C.size
      omega
    intro p hp
    obtain ⟨z1, g1, z2, g2, hv'⟩ := cls_at (hy.1.2 _ rfl) rfl rfl rfl
    change At _ _ _ at hv'
    have e : Sx (items cm (.concat [tR "FOR", Prog.intersperse [p] (.s " ")])) (full cm y) := by
      rw [hv'.view.1] at hp
      change Sx _ (bcom cm y.kind y.id ++ (full cm z2 ++ []) ++ acom cm y.kind y.id ++ pcont cm y) at hp
      have hi : inner cm y = cont cm z1.node ++ (full cm z2 ++ []) := inner_at hv' rfl
      rw [full_eq C' hv', hi]
      have e2 : Sx (items cm (.concat [tR "FOR", Prog.intersperse [p] (.s " ")]))
          (cont cm z1.node ++ (bcom cm y.kind y.id ++ (full cm z2 ++ []) ++ acom cm y.kind y.id ++ pcont cm y)) := by
        flat
        simp only [seqR_unit_right]
        exact sx_seq (sx_tok g1 (by decide)) hp
      have z1 := anchors_tok (cm := cm) g1
      obtain ⟨b, hb1, hb2⟩ := C'.reach.bucket C.good
      refine sx_weaken e2 ?_ ?_ ?_
      · simp only [codeC_append, codeC_bcom, codeC_acom, List.nil_append, List.append_assoc]
      · simp only [spots_append, codeC_append, codeC_bcom, codeC_acom, anchors_append, anchors_nil, z1, Nat.zero_add, Nat.add_zero]
        refine within_perm ?_
        rw [List.perm_iff_count]
        intro a
        simp only [List.count_append]
        omega
      · have hd := C'.reach.calm C.good (calm_of hv' rfl) hb1
        rw [bcom_eq hb2, hd, show y.kind = "for_clause" from hv'.kind]
        simp [show preHold "for_clause" = .loose from rfl]
    repeat' stp
    rw [if_neg (by simp)]
    generalize Prog.concat [tR "FOR", Prog.intersperse [p] (.s " ")] = q at e
    fin

theorem sObjectReturn_sx (C : Ctx root cm cfg bad rec l m) (h : conf l.node (.cls .sObjectReturn) = true) :
    W bad (New.sObjectReturn rec l) (fun p => Sx (items cm p) (full cm l)) := by
  rcases cls_at h rfl rfl rfl with ⟨x1, h1, hv⟩ |
    ⟨x1, h1, x2, h2, x3, h3, x4, h4, x5, h5, x6, h6, x7, h7, x8, h8, x9, h9, hv⟩
  · nrm
    unfold New.sObjectReturn
    repeat' stp
    rw [get_tryCByK hv.plain hv.view rfl (rfl : findSg (kT "selected_fields") _ = some none)]
    refine W_then (P := fun ps => ps = []) (W_ok rfl) ?_
    rintro _ rfl
    repeat' stp
    fin
  · nrm
    unfold New.sObjectReturn
    repeat' stp
    rw [get_tryCByK hv.plain hv.view rfl (rfl : findSg (kT "selected_fields") _ = some (some x3))]
    have C' := C.into hv.sane h3 rfl
    obtain ⟨z, w, g, hv'⟩ := nt_at (h3.1.2 _ rfl) rfl rfl rfl
    change At _ _ _ at hv'
    refine W_then (P := fun ps => ∃ q, ps = [q] ∧ Sx (items cm q) (cont cm x2.node ++ (full cm x3 ++ (ofull cm x4 ++
      (ofull cm x5 ++ (ofull cm x6 ++ (ofull cm x7 ++ (ofull cm x8 ++ (cont cm x9.node ++ []))))))))) ?_ ?_
    · dsimp only
      rw [get_childrenVec hv'.view (rfl : filterSg mT _ = some z)]
      refine W_map C' hv'.sane (fun x hx => g.all x hx) rfl rfl rfl ?_
      intro ps hps hl
      repeat' stp
      refine ⟨_, rfl, ?_⟩
      obtain ⟨b, hb1, hb2⟩ := C'.reach.bucket C.good
      have hi : inner cm x3 = z.flatMap (full cm) ++ [] := inner_at hv' rfl
      have hq : pcont cm x3 = [] := C'.reach.quiet cm (by rw [hv'.kind]; decide)
      refine sx_weaken (sx_wrapped hb1 (C'.reach.calm C.good (calm_of hv' rfl) hb1) hb2 x3.kind
        (k := cont cm x2.node ++ (z.flatMap (full cm) ++ (ofull cm x4 ++
          (ofull cm x5 ++ (ofull cm x6 ++ (ofull cm x7 ++ (ofull cm x8 ++ (cont cm x9.node ++ [])))))))) ?_
        (punct_opt C.good C'.reach)) ?_ ?_ ?_
      · flat
        try simp only [List.append_assoc, seqR_unit, seqR_assoc]
        repeat' es1
      · rw [full_eq C' hv', hi, hq]
        simp only [codeC_append, codeC_bcom, codeC_acom, List.nil_append, List.append_assoc, List.append_nil]
      · have z2 := anchors_tok (cm := cm) h2
        have hw : ∀ n, spots n (acom cm x3.kind x3.id) = b.post.map (fun c => ((.wild, none), c)) := by
          intro n
          rw [acom_eq hb2, show x3.kind = "selected_fields" from hv'.kind]
          simp [show postHold "selected_fields" = .wild from rfl, Hold.spot]
        rw [full_eq C' hv', hi, hq]
        simp only [List.append_nil, spots_append, codeC_append, codeC_bcom, codeC_acom, anchors_append, anchors_nil, z2,
          Nat.zero_add, Nat.add_zero, List.append_assoc]
        refine within_perm ?_
        rw [List.perm_iff_count]
        intro a
        simp only [List.count_append, hw]
        omega
      · have hd := C'.reach.calm C.good (calm_of hv' rfl) hb1
        rw [full_eq C' hv', hi, hq, bcom_eq hb2, acom_eq hb2, hd, show x3.kind = "selected_fields" from hv'.kind]
        simp [show preHold "selected_fields" = .loose from rfl, show postHold "selected_fields" = .wild from rfl]
    · rintro _ ⟨q, rfl, hq⟩
      repeat' stp
      refine sx_bwcp C hv rfl (sx_in hv rfl ?_)
      flat
      refine sx_seq (by assumption) ?_
      rw [seqR_unit_right]
      exact hq

end
end Afmt.Gram
