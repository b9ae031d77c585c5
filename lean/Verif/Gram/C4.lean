import Verif.Gram.C3

/-!
# The printed content of nodes: the remaining declarations and statements
-/

namespace Afmt.Gram
open Prog New
set_option maxRecDepth 10000
section
variable {root : Node} {cm : CMap} {cfg : Cfg} {bad : Panic → Prop} {rec : Rec} {l : Loc} {m : Nat}

theorem body_eq {k : String} {sgs : List (Sg Loc)} (hv : At l k sgs) : body cm l = inner cm l := by
  unfold body
  split
  · rename_i h
    have h1 : ink l.node.text = [] := by
      rcases hv.text with h2 | h2
      · exact absurd h h2
      · exact h2
    have h2 : l.children = [] := by
      have := children_map l
      rw [h] at this
      simpa using this
    have h3 : leafCode l.node = [] := by simp [leafCode, letters_nil h1]
    rw [h3]
    show inlC [] = conts cm _ l.node.children
    rw [h]
    cases bodyKinds.contains l.kind <;> rfl
  · rfl

/-- The children start in order. -/
theorem At.starts {k : String} {a : Atom} {x y : Loc} {sgs : List (Sg Loc)} (hv : At l k (.one a x :: sgs))
    (h : (locs sgs).head? = some y) : x.startByte < y.startByte := by
  have h1 := sane_orderly hv.sane
  rw [← view_map, hv.view.1] at h1
  obtain ⟨r, e⟩ : ∃ r, locs sgs = y :: r := by
    cases hl : locs sgs with
    | nil => rw [hl] at h; cases h
    | cons z r => rw [hl] at h; cases h; exact ⟨r, rfl⟩
  have e' : locs (.one a x :: sgs) = x :: y :: r := by rw [← e]; rfl
  rw [e'] at h1
  simp only [List.map_cons, orderly, Bool.and_eq_true, decide_eq_true_eq] at h1
  exact h1.1.2

theorem updateExpressionVariant_sx (C : Ctx root cm cfg bad rec l m) (h : conf l.node (.cls .updateExpressionVariant) = true) :
    W bad (New.updateExpressionVariant rec l) (fun p => Sx (items cm p) (body cm l)) := by
  rcases cls_at h rfl rfl rfl with ⟨x1, h1, x2, h2, hv⟩ | ⟨x1, h1, x2, h2, hv⟩
  · nrm
    unfold New.updateExpressionVariant
    repeat' stp
    rw [body_eq hv, if_pos (hv.starts rfl)]
    inn
  · nrm
    unfold New.updateExpressionVariant
    repeat' stp
    have := hv.starts (y := x2) rfl
    rw [body_eq hv, if_neg (by omega)]
    inn

theorem nexts_last : ∀ {xs : List Loc} {x : Loc}, Nexts (xs ++ [x]) → nexts x = []
  | [], _, h => h.1
  | _ :: _, _, h => nexts_last h.2

theorem itemss_annotatedName (as : List Prog) (w : Str) :
    itemss cm (annotatedName as w) = seqR (itemss cm as) (items cm (.txt w)) := by
  unfold annotatedName
  cases as with
  | nil => simp only [List.isEmpty_nil, if_true]; flat; rw [seqR_unit_right]
  | cons a as =>
    rw [if_neg (by simp)]
    flat
    rw [seqR_unit_right]

theorem typeParameter_sx (C : Ctx root cm cfg bad rec l m) (h : conf l.node (.cls .typeParameter) = true) :
    W bad (New.typeParameter rec l) (fun p => Sx (items cm p) (full cm l)) := by
  obtain ⟨x1, h1, x2, h2, hv⟩ := cls_at h rfl rfl rfl
  nrm
  unfold New.typeParameter
  repeat' stp
  have hi := sx_ident (cm := cm) h2 (pcont_last (nexts_last (xs := x1) hv.nexts))
  refine sx_bwcp C hv rfl (sx_in hv rfl ?_)
  rw [itemss_annotatedName]
  repeat' es1

theorem scopedTypeIdentifier_sx (C : Ctx root cm cfg bad rec l m) (h : conf l.node (.cls .scopedTypeIdentifier) = true) :
    W bad (New.scopedTypeIdentifier rec l) (fun p => Sx (items cm p) (full cm l)) := by
  rcases cls_at h rfl rfl rfl with ⟨x1, h1, x2, h2, x3, h3, x4, h4, hv⟩ | ⟨x1, h1, x2, h2, x3, h3, x4, h4, hv⟩ | ⟨x1, h1, x2, h2, x3, h3, x4, h4, hv⟩
  · nrm
    unfold New.scopedTypeIdentifier
    repeat' stp
    rw [if_pos (h1.kind_eq rfl)]
    have hi := sx_ident (cm := cm) h1 (pcont_of hv.nexts.1 (h2.punct rfl))
    have hj := sx_ident (cm := cm) h4 (pcont_last (nexts_last (xs := x3) hv.nexts.2.2))
    refine W_then (W_ok (Q := fun p => Sx (items cm p) (full cm x1)) hi) ?_
    intro p hp
    repeat' stp
    refine sx_bwcp C hv rfl (sx_in hv rfl ?_)
    rw [itemss_append, itemss_annotatedName]
    flat
    repeat' es1
  · nrm
    unfold New.scopedTypeIdentifier
    repeat' stp
    rw [if_neg (h1.kind_ne rfl), if_pos (h1.kind_eq rfl)]
    have hj := sx_ident (cm := cm) h4 (pcont_last (nexts_last (xs := x3) hv.nexts.2.2))
    repeat' stp
    refine sx_bwcp C hv rfl (sx_in hv rfl ?_)
    rw [itemss_append, itemss_annotatedName]
    flat
    repeat' es1
  · nrm
    unfold New.scopedTypeIdentifier
    repeat' stp
    rw [if_neg (h1.kind_ne rfl), if_neg (h1.kind_ne rfl), if_pos (h1.kind_eq rfl)]
    have hj := sx_ident (cm := cm) h4 (pcont_last (nexts_last (xs := x3) hv.nexts.2.2))
    repeat' stp
    refine sx_bwcp C hv rfl (sx_in hv rfl ?_)
    rw [itemss_append, itemss_annotatedName]
    flat
    repeat' es1

theorem whileStatement_sx (C : Ctx root cm cfg bad rec l m) (h : conf l.node (.cls .whileStatement) = true) :
    W bad (New.whileStatement rec l) (fun p => Sx (items cm p) (full cm l)) := by
  obtain ⟨x1, h1, x2, h2, x3, h3, hv⟩ := cls_at h rfl rfl rfl
  nrm
  unfold New.whileStatement
  repeat' stp
  rw [if_neg (h3.kind_ne rfl)]
  refine sx_bwc C hv rfl rfl ?_
  inn

/-- A keyword kept as a string. -/
theorem sx_keyword {f : List (Option String)} {ks : List String} {b : Bool} {c : Cls} {k w : String} {x : Loc}
    (h : SatL l ⟨b, f, ks, some (.cls c)⟩ x) (hp : prod (.cls c) = .words [(k, w)]) (hs : sub c = []) (hn : pcont cm x = []) :
    Sx (items cm (t w)) (full cm x) := by
  obtain ⟨h1, h2, e, he, hk, hf⟩ := cls_words (h.1.2 _ rfl) hp hs
  cases List.mem_singleton.1 he
  exact sx_text h1 hn (SameL.cased h1 h2 hf.symm)

theorem constructInvocation_sx (C : Ctx root cm cfg bad rec l m) (h : conf l.node (.cls .constructInvocation) = true) :
    W bad (New.constructInvocation rec l) (fun p => Sx (items cm p) (full cm l)) := by
  rcases cls_at h rfl rfl rfl with ⟨x1, h1, x2, h2, x3, h3, x4, h4, hv⟩ | ⟨x1, h1, x2, h2, x3, h3, x4, h4, hv⟩
  · nrm
    have hn : nexts x2 = [x3, x4] := by
      cases x1 with
      | none => exact hv.nexts.1
      | some x => exact hv.nexts.2.1
    have hi := sx_keyword (cm := cm) h2 rfl rfl (pcont_of hn (h3.punct rfl))
    unfold New.constructInvocation
    repeat' stp
    rw [optR, if_pos (h2.kind_eq rfl)]
    refine W_then (W_ok (Q := fun o => o = some (t "this")) rfl) ?_
    rintro _ rfl
    repeat' stp
    fin
  · nrm
    have hn : nexts x2 = [x3, x4] := by
      cases x1 with
      | none => exact hv.nexts.1
      | some x => exact hv.nexts.2.1
    have hi := sx_keyword (cm := cm) h2 rfl rfl (pcont_of hn (h3.punct rfl))
    unfold New.constructInvocation
    repeat' stp
    rw [optR, if_neg (h2.kind_ne rfl), if_pos (h2.kind_eq rfl)]
    refine W_then (W_ok (Q := fun o => o = some (t "super")) rfl) ?_
    rintro _ rfl
    repeat' stp
    fin

theorem constructorBodyDoc_none (ms : List (Bool × Prog)) :
    itemss cm (constructorBodyDoc none ms) = seqR (items cm (t "{")) (seqR (bodyR cm ms) (seqR (items cm (t "}")) unit)) := by
  cases ms with
  | nil => simp only [constructorBodyDoc]; flat; rfl
  | cons a as => simp only [constructorBodyDoc]; flat

theorem constructorBodyDoc_some (a : Bool × Prog) (ms : List (Bool × Prog)) :
    itemss cm (constructorBodyDoc (some a) ms) =
      seqR (items cm (t "{")) (seqR (bodyR cm (a :: ms)) (seqR (items cm (t "}")) unit)) := by
  cases a with
  | mk b p =>
    cases ms with
    | nil => simp only [constructorBodyDoc, bodyR]; flat; rw [show bodyR cm [] = unit from rfl, seqR_unit]
    | cons a as =>
      rw [bodyR, constructorBodyDoc]
      · cases b <;> (flat; simp only [Bool.false_eq_true, if_false, if_true, items_sep])
      · simp
      · simp

theorem constructorBody_sx (C : Ctx root cm cfg bad rec l m) (h : conf l.node (.cls .constructorBody) = true) :
    W bad (New.constructorBody cfg rec l) (fun p => Sx (items cm p) (full cm l)) := by
  rcases cls_at h rfl rfl rfl with ⟨x1, h1, x2, h2, x3, h3, hv⟩ | ⟨x1, h1, x2, h2, x3, h3, x4, h4, hv⟩
  · nrm
    have hi := inner_brace (cm := cm) hv rfl h1 h2 h3 rfl rfl
    unfold New.constructorBody
    rw [get_childrenVec hv.view (rfl : filterSg mT _ = some _)]
    refine W_then (P := fun q : Option (Bool × Prog) × List (Bool × Prog) => q.1 = none ∧ Sx (bodyR cm q.2) (sepL cm x2)) ?_ ?_
    · cases x2 with
      | nil => exact W_ok ⟨rfl, sx_unit⟩
      | cons y ys =>
        dsimp only
        rw [if_neg ((h2 y (by simp)).kind_ne rfl)]
        refine W_members C hv.sane (xs := y :: ys) h2 rfl rfl rfl ?_
        intro ps hps _
        exact W_ok ⟨rfl, hps⟩
    · rintro ⟨_, ms⟩ ⟨rfl, hms⟩
      refine W_ok (sx_brace C hv rfl h1 h3 (M := itemss cm (constructorBodyDoc none ms)) (Or.inr ?_) ?_ ?_)
      · rw [items_concat]
      · rw [constructorBodyDoc_none, hi]
        dsimp only at hms
        repeat' es1
      · intro hH
        rw [hi, hollow_nil hH h2 rfl]
        rfl
  · nrm
    have hi := inner_ctor (cm := cm) hv rfl h1 h2 h3 h4 rfl rfl rfl rfl
    unfold New.constructorBody
    rw [get_childrenVec hv.view (rfl : filterSg mT _ = some _)]
    refine W_then (P := fun q : Option (Bool × Prog) × List (Bool × Prog) => ∃ a, q.1 = some a ∧
      Sx (bodyR cm (a :: q.2)) (sepL cm (x2 :: x3))) ?_ ?_
    · dsimp only
      rw [if_pos (h2.kind_eq rfl)]
      refine W_then (W_member C hv.sane h2 rfl rfl rfl) ?_
      intro p hp
      refine W_members C hv.sane h3 rfl rfl rfl ?_
      intro ps hps hl
      exact W_ok ⟨_, rfl, bodyR_cons hp.1 hp.2 hps hl⟩
    · rintro ⟨_, ms⟩ ⟨a, rfl, hms⟩
      refine W_ok (sx_brace C hv rfl h1 h4 (M := itemss cm (constructorBodyDoc (some a) ms)) (Or.inr ?_) ?_ ?_)
      · rw [items_concat]
      · rw [constructorBodyDoc_some, hi]
        dsimp only at hms
        repeat' es1
      · intro hH
        have := hH _ (mem_children_node (mem_view.1 h2.2).1)
        rw [h2.assoc rfl] at this
        cases this

theorem root_sx (C : Ctx root cm cfg bad rec l m) (h : conf l.node (.cls .root) = true) :
    W bad (New.root cfg rec l) (fun p => Sx (items cm p) (full cm l)) := by
  obtain ⟨x1, h1, hv⟩ := cls_at h rfl rfl rfl
  nrm
  unfold New.root
  repeat' stp
  obtain ⟨b, hb1, hb2⟩ := C.reach.bucket C.good
  rw [items_calm hb1 (C.reach.calm C.good (calm_of hv rfl) hb1)]
  refine sx_raw C hv rfl ?_
  rw [inner_members hv rfl h1 rfl rfl]
  flat
  simp only [seqR_unit_right]
  assumption

end
end Afmt.Gram
