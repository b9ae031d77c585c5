import Verif.Gram.C2

/-!
# The printed content of nodes: src/data_model.rs 1144-2061
-/

namespace Afmt.Gram
open Prog New
set_option maxRecDepth 10000
section
variable {root : Node} {cm : CMap} {cfg : Cfg} {bad : Panic → Prop} {rec : Rec} {l : Loc} {m : Nat}

theorem pcont_of {x y : Loc} {r : List Loc} (hn : nexts x = y :: r) (hy : isPunctuationKind y.kind = false) : pcont cm x = [] := by
  simp only [pcont, hn, hy]; rfl

theorem pcont_last {x : Loc} (hn : nexts x = []) : pcont cm x = [] := by simp only [pcont, hn]

theorem pcont_punct {x y : Loc} {r : List Loc} (hn : nexts x = y :: r) (hy : isPunctuationKind y.kind = true) :
    pcont cm x = cont cm y.node := by
  simp only [pcont, hn, hy, if_true]

theorem At.nexts {k : String} {sgs : List (Sg Loc)} (hv : At l k sgs) : Nexts (locs sgs) := by
  rw [← hv.view.1]; exact view_nexts l

theorem SatL.punct {a : Atom} {x : Loc} (h : SatL l a x) {b : Bool} (hk : a.kinds.all (fun k => isPunctuationKind k == b) = true) :
    isPunctuationKind x.kind = b := by
  have := List.all_eq_true.1 hk _ h.fits.2.2.1
  simpa [Loc.kind] using this

theorem localVariableDeclaration_cx (C : Ctx root cm cfg bad rec l m) (h : conf l.node (.cls .localVariableDeclaration) = true) :
    W bad (New.localVariableDeclaration rec l) (fun p => Sx (items cm p) (cont cm l.node)) := by
  obtain ⟨x1, h1, x2, h2, x3, y3, h3, x4, h4, hv⟩ := cls_at h rfl rfl rfl
  nrm
  unfold New.localVariableDeclaration
  repeat' stp
  obtain ⟨b, hb1, hb2⟩ := C.reach.bucket C.good
  have hf := full_eq C hv
  rw [full] at hf
  rw [List.append_cancel_right hf]
  rw [← List.append_nil (_ ++ acom cm l.kind l.id)]
  refine sx_wrapped hb1 (C.reach.calm C.good (calm_of hv rfl) hb1) hb2 _ ?_ (by rw [punctOpt, itemss_nil]; exact sx_unit)
  inn

theorem localVariableDeclaration_sx (C : Ctx root cm cfg bad rec l m) (h : conf l.node (.cls .localVariableDeclaration) = true)
    (hb : Body l) : W bad (New.localVariableDeclaration rec l) (fun p => Sx (items cm p) (full cm l)) := by
  have hk : l.kind = "local_variable_declaration" := by
    obtain ⟨x1, h1, x2, h2, x3, y3, h3, x4, h4, hv⟩ := cls_at h rfl rfl rfl
    exact At.kind hv
  rw [full, C.reach.quietNode cm, List.append_nil]
  · exact localVariableDeclaration_cx C h
  · have := hb hk
    simp only [Loc.kind] at hk
    simp [Node.quiet, hk, this]

theorem variableDeclarator_sx (C : Ctx root cm cfg bad rec l m) (h : conf l.node (.cls .variableDeclarator) = true) :
    W bad (New.variableDeclarator rec l) (fun p => Sx (items cm p) (full cm l)) := by
  rcases cls_at h rfl rfl rfl with ⟨x1, h1, hv⟩ | ⟨x1, h1, x2, h2, x3, h3, hv⟩
  · nrm
    unfold New.variableDeclarator
    repeat' stp
    rw [get_tryCByN hv.plain hv.view (rfl : findSg (nT "value") _ = some none)]
    dsimp only
    repeat' stp
    fin
  · nrm
    unfold New.variableDeclarator
    repeat' stp
    rw [get_tryCByN hv.plain hv.view (rfl : findSg (nT "value") _ = some (some x3))]
    dsimp only
    repeat' stp
    split <;> fin

theorem SatL.spelled {f : List (Option String)} {ks : List String} {b : Bool} {x : Loc} (h : SatL l ⟨b, f, ks, some (.cls .valueNode)⟩ x) :
    spelled x.node = true := (core_leaf rfl (h.1.2 _ rfl) rfl).1

/-- An identifier kept as a string. -/
theorem sx_ident {f : List (Option String)} {ks : List String} {b : Bool} {x : Loc} (h : SatL l ⟨b, f, ks, some (.cls .valueNode)⟩ x)
    (hp : pcont cm x = []) : Sx (items cm (.txt x.value)) (full cm x) := sx_text h.spelled hp (SameL.spelled h.spelled)

theorem genericType_sx (C : Ctx root cm cfg bad rec l m) (h : conf l.node (.cls .genericType) = true) :
    W bad (New.genericType rec l) (fun p => Sx (items cm p) (full cm l)) := by
  rcases cls_at h rfl rfl rfl with ⟨x1, h1, x2, h2, hv⟩ | ⟨x1, h1, x2, h2, hv⟩
  · nrm
    unfold New.genericType
    repeat' stp
    rw [get_tryCByK hv.plain hv.view rfl (rfl : findSg (kT "type_identifier") _ = some (some x1))]
    refine W_then (W_ok (Q := fun p => Sx (items cm p) (full cm x1)) (sx_ident h1 (pcont_of hv.nexts.1 (h2.punct rfl)))) ?_
    intro p hp
    repeat' stp
    fin
  · nrm
    unfold New.genericType
    repeat' stp
    rw [get_tryCByK hv.plain hv.view rfl (rfl : findSg (kT "type_identifier") _ = some none)]
    dsimp only
    rw [get_tryCByK hv.plain hv.view rfl (rfl : findSg (kT "scoped_type_identifier") _ = some (some x1))]
    dsimp only
    repeat' stp
    fin

theorem ifStatement_sx (C : Ctx root cm cfg bad rec l m) (h : conf l.node (.cls .ifStatement) = true) :
    W bad (New.ifStatement rec l) (fun p => Sx (items cm p) (full cm l)) := by
  rcases cls_at h rfl rfl rfl with ⟨x1, h1, x2, h2, x3, h3, hv⟩ | ⟨x1, h1, x2, h2, x3, h3, x4, h4, x5, h5, hv⟩
  · nrm
    unfold New.ifStatement
    repeat' stp
    rw [get_tryCByN hv.plain hv.view (rfl : findSg (nT "alternative") _ = some none)]
    dsimp only
    repeat' stp
    fin
  · nrm
    unfold New.ifStatement
    repeat' stp
    rw [get_tryCByN hv.plain hv.view (rfl : findSg (nT "alternative") _ = some (some x5))]
    dsimp only
    rw [get_findKind hv.plain hv.view rfl (rfl : findSg (eT "else") _ = some (some x4))]
    dsimp only
    repeat' stp
    fin

/-! ### Loops -/

theorem forInitOption_decl (C : Ctx root cm cfg bad rec l m) (hm : 8 * depth l.node + 2 < m)
    (h : conf l.node (.cls .localVariableDeclaration) = true) :
    W bad (New.forInitOption rec l) (fun p => Sx (items cm p) (cont cm l.node)) := by
  have hk : l.kind = "local_variable_declaration" := by
    obtain ⟨x1, h1, x2, h2, x3, y3, h3, x4, h4, hv⟩ := cls_at h rfl rfl rfl
    exact At.kind hv
  rw [New.forInitOption, if_pos hk]
  exact C.call (.decl C.reach h) hm

theorem forInitOption_exprs {p x : Loc} {xs : List Loc} (hr : Reach root p) (hs : sane p.kind p.node.children = true)
    (hx : x ∈ p.children) (hk : x.kind ≠ "local_variable_declaration")
    (hf : p.children.filter (fun c => c.node.field == some "init") = xs) (hne : xs ≠ [])
    (hsat : ∀ y ∈ xs, SatL p (kf "init" .expression) y)
    (call : ∀ {c x k m'}, Call root cm c x k m' → m' < 8 * depth p.node - 1 → W bad (rec c x) (fun p => Sx (items cm p) k)) :
    W bad (New.forInitOption rec x) (fun q => Sx (items cm q) (xs.flatMap (full cm))) := by
  rw [New.forInitOption, if_neg hk, children_parent hx]
  dsimp only
  have hc : p.csByN "init" = .ok xs := by
    unfold Loc.csByN
    rw [hf]
    cases xs with
    | nil => exact absurd rfl hne
    | cons => rfl
  rw [hc]
  show W bad (mapR (rec .expression) xs >>= _) _
  refine W_then (W_mapR (cm := cm) (f := rec .expression) (xs := xs) ?_) ?_
  · intro y hy
    have h1 := hsat y hy
    refine call (.node (.kid hr hs (mem_view.1 h1.2).1 (h1.assoc rfl)) rfl (h1.1.2 _ rfl) (h1.body rfl)) ?_
    have h2 := depth_view h1.2
    have h3 : rank Cls.expression = 4 := rfl
    omega
  · intro ps hps
    refine W_ok ?_
    flat
    exact hps.1

theorem W_loopBody {β : Type} (C : Ctx root cm cfg bad rec l m) (hs : sane l.kind l.node.children = true) {x : Loc}
    (hx : SatL l (kf "body" .statement) x) {K : List Prog → R β} {Q : β → Prop}
    (h : ∀ ps, Sx (itemss cm ps) (full cm x) → W bad (K ps) Q) : W bad (loopBody rec x >>= K) Q := by
  refine W_then (P := fun ps => Sx (itemss cm ps) (full cm x)) ?_ h
  unfold loopBody
  refine W_then (C.sat hs hx rfl rfl rfl) ?_
  intro p hp
  refine W_ok ?_
  rw [if_neg (hx.kind_ne rfl)]
  flat
  rw [seqR_unit_right]
  exact hp

theorem enhancedForStatement_sx (C : Ctx root cm cfg bad rec l m) (h : conf l.node (.cls .enhancedForStatement) = true) :
    W bad (New.enhancedForStatement rec l) (fun p => Sx (items cm p) (full cm l)) := by
  obtain ⟨x1, h1, x2, h2, x3, h3, x4, h4, x5, h5, x6, h6, x7, h7, x8, h8, hv⟩ := cls_at h rfl rfl rfl
  nrm
  unfold New.enhancedForStatement
  repeat' stp
  refine W_loopBody C hv.sane h8 ?_
  intro ps hps
  repeat' stp
  fin

theorem puncs_ok : ∀ {xs : List Loc}, (∀ x ∈ xs, x.kind = ";") → mapR Punc.new xs = .ok (xs.map Punc.ofLoc)
  | [], _ => rfl
  | x :: xs, h => by
    have h1 : Punc.new x = .ok (Punc.ofLoc x) := by
      have := h x (by simp)
      simp [Punc.new, Punc.ofLoc, this]
    unfold mapR
    rw [h1, puncs_ok (fun y hy => h y (by simp [hy]))]
    rfl

theorem sx_semi (C : Ctx root cm cfg bad rec l m) (hs : sane l.kind l.node.children = true) {x : Loc} (hx : SatL l (tok ";") x) :
    Sx (items cm (.punct (Punc.ofLoc x))) (cont cm x.node) := by
  have hr := C.reachKid hs hx.2 (hx.assoc rfl)
  obtain ⟨b, hb1, hb2⟩ := hr.bucket C.good
  refine sx_punct hb1 hb2 hx.fits.1 hx.noExtra ?_ (hx.punct rfl)
  rcases hx.fits.2.2.2 with h | h
  · cases h
  · exact h

/-- The init part of the header is a declaration. -/
theorem W_forDecl {β : Type} (C : Ctx root cm cfg bad rec l m) (hs : sane l.kind l.node.children = true) {x : Loc}
    (hx : SatL l (kf "init" .localVariableDeclaration) x) {K : Option Prog → R β} {Q : β → Prop}
    (h : ∀ p, Sx (items cm p) (cont cm x.node) → W bad (K (some p)) Q) : W bad (optR (some x) (rec .forInitOption) >>= K) Q := by
  have h1 : W bad (rec .forInitOption x) (fun p => Sx (items cm p) (cont cm x.node)) := by
    refine C.call (.forDecl (C.reachKid hs hx.2 (assoc_of_named hx.2 hx.fits.1)) (hx.1.2 _ rfl)) ?_
    have := depth_view hx.2
    have := C.size
    omega
  simp only [optR]
  cases hr : rec .forInitOption x with
  | error e => rw [hr] at h1; exact h1
  | ok p => rw [hr] at h1; exact h p h1

/-- The init part of the header is a list of expressions. -/
theorem W_forInit {β : Type} (C : Ctx root cm cfg bad rec l m) {k : String} {sgs : List (Sg Loc)} (hv : At l k sgs) {x : Loc}
    {xs : List Loc} (hm : 8 * depth l.node + 2 ≤ m)
    (hf : filterSg (nT "init") sgs = some xs) (hx : xs.head? = some x) (hsat : ∀ y ∈ xs, SatL l (kf "init" .expression) y)
    {K : Option Prog → R β} {Q : β → Prop}
    (h : ∀ p, Sx (items cm p) (xs.flatMap (full cm)) → W bad (K (some p)) Q) : W bad (optR (some x) (rec .forInitOption) >>= K) Q := by
  have hxm : x ∈ xs := List.mem_of_head? hx
  have h1 : W bad (rec .forInitOption x) (fun p => Sx (items cm p) (xs.flatMap (full cm))) := by
    refine C.call (.forInit C.reach hv.sane (mem_view.1 (hsat x hxm).2).1 ((hsat x hxm).kind_ne rfl) (get_byField hv.plain hv.view hf)
      (by intro e; rw [e] at hxm; cases hxm) hsat) ?_
    omega
  simp only [optR]
  cases hr : rec .forInitOption x with
  | error e => rw [hr] at h1; exact h1
  | ok p => rw [hr] at h1; exact h p h1

theorem forStatement_sx (C : Ctx root cm cfg bad rec l m) (hm : 8 * depth l.node + 2 ≤ m) (h : conf l.node (.cls .forStatement) = true) :
    W bad (New.forStatement rec l) (fun p => Sx (items cm p) (full cm l)) := by
  rcases cls_at h rfl rfl rfl with ⟨x1, h1, x2, h2, x3, h3, x4, h4, x5, h5, x6, h6, x7, h7, x8, h8, hv⟩ |
    ⟨x1, h1, x2, h2, x3, h3, x4, h4, x6, h6, x7, h7, x8, h8, hv⟩ |
    ⟨x1, h1, x2, h2, x3, y3, h3, x5, h5, x4, h4, x9, h9, x6, h6, x7, h7, x8, h8, hv⟩ |
    ⟨x1, h1, x2, h2, x3, h3, x4, h4, x5, h5, x6, h6, x7, h7, x8, h8, hv⟩ |
    ⟨x1, h1, x2, h2, x3, h3, x4, h4, x6, h6, x7, h7, x8, h8, hv⟩
  · nrm
    have hpc : pcont cm x3 = [] := pcont_of hv.nexts.2.2.1 (h4.punct rfl)
    cases x6
    all_goals
      try have h6' := h6 _ rfl
      unfold New.forStatement
      refine W_assert hv ?_
      rw [get_tryCByN hv.plain hv.view (rfl : findSg (nT "init") _ = some (some x3))]
      refine W_forDecl C hv.sane h3 ?_
      intro i hi
      have hi' : Sx (items cm i) (full cm x3) := by rw [full, hpc, List.append_nil]; exact hi
      repeat' stp
      rw [get_byKind hv.plain hv.view rfl rfl, puncs_ok (fun x hx => by
        cases List.mem_singleton.1 hx; exact h5.kind_eq rfl)]
      show W bad (l.cByN "body" >>= _) _
      stp
      refine W_loopBody C hv.sane h8 ?_
      intro ps hps
      refine W_ok ?_
      fin
  · nrm
    have hpc : pcont cm x3 = cont cm x4.node := pcont_punct hv.nexts.2.2.1 (h4.punct rfl)
    have h4' := sx_semi C hv.sane h4
    cases x6
    all_goals
      try have h6' := h6 _ rfl
      unfold New.forStatement
      refine W_assert hv ?_
      rw [get_tryCByN hv.plain hv.view (rfl : findSg (nT "init") _ = some (some x3))]
      refine W_forDecl C hv.sane h3 ?_
      intro i hi
      repeat' stp
      rw [get_byKind hv.plain hv.view rfl rfl, puncs_ok (fun x hx => by
        cases List.mem_singleton.1 hx; exact h4.kind_eq rfl)]
      show W bad (l.cByN "body" >>= _) _
      stp
      refine W_loopBody C hv.sane h8 ?_
      intro ps hps
      refine W_ok ?_
      refine sx_bwcp C hv rfl ?_
      apply sx_in hv rfl
      flat
      rw [full, hpc]
      simp only [List.append_assoc]
      repeat' es1
  · nrm
    have hne : ∃ x xs, x3 = x :: xs := by
      cases x3 with
      | nil => exact absurd rfl h3.ne
      | cons x xs => exact ⟨x, xs, rfl⟩
    obtain ⟨x0, xs, rfl⟩ := hne
    cases x6
    all_goals
      try have h6' := h6 _ rfl
      unfold New.forStatement
      refine W_assert hv ?_
      rw [get_tryCByN hv.plain hv.view (rfl : findSg (nT "init") _ = some (some x0))]
      refine W_forInit C hv hm (xs := x0 :: xs) rfl rfl h3.all ?_
      intro i hi
      repeat' stp
      rw [get_byKind hv.plain hv.view rfl rfl, puncs_ok (fun x hx => by
        rcases List.mem_cons.1 hx with rfl | hx
        · exact h5.kind_eq rfl
        · cases List.mem_singleton.1 hx; exact h9.kind_eq rfl)]
      show W bad (l.cByN "body" >>= _) _
      stp
      refine W_loopBody C hv.sane h8 ?_
      intro ps hps
      refine W_ok ?_
      fin
  · nrm
    have h3' := sx_semi C hv.sane h3
    cases x6
    all_goals
      try have h6' := h6 _ rfl
      unfold New.forStatement
      repeat' stp
      rw [get_byKind hv.plain hv.view rfl rfl, puncs_ok (fun x hx => by
        rcases List.mem_cons.1 hx with rfl | hx
        · exact h3.kind_eq rfl
        · cases List.mem_singleton.1 hx; exact h5.kind_eq rfl)]
      show W bad (l.cByN "body" >>= _) _
      stp
      refine W_loopBody C hv.sane h8 ?_
      intro ps hps
      refine W_ok ?_
      fin
  · nrm
    have h3' := sx_semi C hv.sane h3
    have h4' := sx_semi C hv.sane h4
    cases x6
    all_goals
      try have h6' := h6 _ rfl
      unfold New.forStatement
      repeat' stp
      rw [get_byKind hv.plain hv.view rfl rfl, puncs_ok (fun x hx => by
        rcases List.mem_cons.1 hx with rfl | hx
        · exact h3.kind_eq rfl
        · cases List.mem_singleton.1 hx; exact h4.kind_eq rfl)]
      show W bad (l.cByN "body" >>= _) _
      stp
      refine W_loopBody C hv.sane h8 ?_
      intro ps hps
      refine W_ok ?_
      fin

end
end Afmt.Gram
