import Verif.ShapeNew

/-!
# The comment map and the printing of trees that differ in ids and positions only
-/

namespace Afmt
open Gram

/-- The comment with another id and the text of another node. -/
def Comment.ren (τ : Nat → Pos) (c : Comment) : Comment := { c with id := (τ c.id).id, value := trimEnd (τ c.id).text }
/-- The bucket with other ids. -/
def Bucket.ren (τ : Nat → Pos) (b : Bucket) : Bucket := ⟨b.pre.map (Comment.ren τ), b.post.map (Comment.ren τ), b.dangling.map (Comment.ren τ)⟩
/-- The comment map with other ids. -/
def CMap.ren (τ : Nat → Pos) (cm : CMap) : CMap := cm.map (fun p => ((τ p.1).id, p.2.ren τ))

variable {τ : Nat → Pos} (inj : ∀ a b, (τ a).id = (τ b).id → a = b)

include inj in
theorem cmap_get (cm : CMap) (id : Nat) : (cm.ren τ).get? (τ id).id = (cm.get? id).map (Bucket.ren τ) := by
  rw [CMap.get?, CMap.ren, List.find?_map, CMap.get?]
  have : ((fun p : Nat × Bucket => p.1 == (τ id).id) ∘ fun p : Nat × Bucket => ((τ p.1).id, p.2.ren τ)) = fun p => p.1 == id := by
    funext p
    rw [Bool.eq_iff_iff]
    simp only [Function.comp, beq_iff_eq]
    exact ⟨inj _ _, fun h => by rw [h]⟩
  rw [this]
  cases cm.find? (fun p => p.1 == id) <;> rfl

include inj in
theorem bucket_ren (cm : CMap) (id : Nat) : getBucket (cm.ren τ) (τ id).id = (getBucket cm id).map (Bucket.ren τ) := by
  rw [getBucket, cmap_get inj, getBucket]
  cases cm.get? id <;> rfl

include inj in
theorem cmap_update {f f' : Bucket → Bucket} (hf : ∀ b, f' (b.ren τ) = (f b).ren τ) (id : Nat) : ∀ cm : CMap,
    (cm.ren τ).update f' (τ id).id = (cm.update f id).ren τ
  | [] => by
    show CMap.update f' _ [] = _
    rw [CMap.update, CMap.update]
    show [((τ id).id, f' (Bucket.empty.ren τ))] = _
    rw [hf]
    rfl
  | (k, b) :: cm => by
    show CMap.update f' _ (((τ k).id, b.ren τ) :: CMap.ren τ cm) = _
    rw [CMap.update, CMap.update]
    by_cases h : k = id
    · rw [if_pos h, if_pos (by rw [h]), hf]
      rfl
    · rw [if_neg h, if_neg (fun g => h (inj _ _ g)), cmap_update hf id cm]
      rfl

theorem addPre_ren (cs : List Comment) (b : Bucket) : (b.ren τ).addPre (cs.map (Comment.ren τ)) = (b.addPre cs).ren τ := by
  simp only [Bucket.addPre, Bucket.ren, List.map_append]
theorem addPost_ren (cs : List Comment) (b : Bucket) : (b.ren τ).addPost (cs.map (Comment.ren τ)) = (b.addPost cs).ren τ := by
  simp only [Bucket.addPost, Bucket.ren, List.map_append]
theorem addDangling_ren (cs : List Comment) (b : Bucket) : (b.ren τ).addDangling (cs.map (Comment.ren τ)) = (b.addDangling cs).ren τ := by
  simp only [Bucket.addDangling, Bucket.ren, List.map_append]

theorem find_node {p : Node → Bool} (h : ∀ n : Node, p (n.ren τ) = p n) (ns : List Node) :
    (ns.map (Node.ren τ)).find? p = (ns.find? p).map (Node.ren τ) := by
  rw [List.find?_map]
  congr 1
  congr 1
  funext x
  exact h x

theorem find_named (ns : List Node) : (ns.map (Node.ren τ)).find? (·.named) = (ns.find? (·.named)).map (Node.ren τ) :=
  find_node (fun n => node_named τ n) ns
theorem find_code (ns : List Node) : (ns.map (Node.ren τ)).find? Node.isCode = (ns.find? Node.isCode).map (Node.ren τ) :=
  find_node (fun n => by rw [Node.isCode, node_extra, node_named, node_kind, Node.isCode]) ns
theorem find_nonextra (ns : List Node) : (ns.map (Node.ren τ)).find? (fun s => !s.extra) = (ns.find? (fun s => !s.extra)).map (Node.ren τ) :=
  find_node (fun n => by rw [node_extra]) ns

/-- Around a node the tree and its image look the same. -/
def SameAround (τ : Nat → Pos) (checks body : Bool) (lefts : List Node) (n : Node) (rights : List Node) : Prop :=
  around checks body lefts n rights = around checks body (lefts.map (Node.ren τ)) (n.ren τ) (rights.map (Node.ren τ))

theorem lt_pred (a b : Nat) : decide (a < b - 1) = decide (a + 1 < b) := by
  rw [decide_eq_decide]
  omega

theorem metadata_ren {checks body : Bool} {lefts rights : List Node} {n : Node} (h : SameAround τ checks body lefts n rights) (he : n.extra = true)
    (t : CommentType) : CommentMetadata.of (n.ren τ) t ((lefts.map (Node.ren τ)).find? (·.named)) ((rights.map (Node.ren τ)).find? (·.named)) =
      CommentMetadata.of n t (lefts.find? (·.named)) (rights.find? (·.named)) := by
  have hp := congrArg Around.prev h
  have hx := congrArg Around.next h
  simp only [around, node_extra, he, if_pos] at hp hx
  rw [find_named] at hp hx ⊢
  rw [find_named]
  have h1 : ∀ p, lefts.find? (·.named) = some p → ((n.ren τ).startRow == (p.ren τ).endRow) = (n.startRow == p.endRow) ∧
      decide ((n.ren τ).startRow > (p.ren τ).endRow + 1) = decide (n.startRow > p.endRow + 1) := by
    intro p hf
    rw [hf] at hp
    simp only [Option.map_some, Option.some.injEq, Prod.mk.injEq] at hp
    exact ⟨hp.1.symm, hp.2.symm⟩
  have h2 : ∀ p, rights.find? (·.named) = some p → ((n.ren τ).endRow == (p.ren τ).startRow) = (n.endRow == p.startRow) ∧
      decide ((n.ren τ).endRow < (p.ren τ).startRow - 1) = decide (n.endRow < p.startRow - 1) := by
    intro p hf
    rw [hf] at hx
    simp only [Option.map_some, Option.some.injEq, Prod.mk.injEq] at hx
    rw [lt_pred, lt_pred]
    exact ⟨hx.1.symm, hx.2.symm⟩
  cases hl : lefts.find? (·.named) with
  | none =>
    cases hr : rights.find? (·.named) with
    | none => rfl
    | some x =>
      simp only [Option.map, CommentMetadata.of, (h2 x hr).1, (h2 x hr).2, node_kind]
  | some p =>
    cases hr : rights.find? (·.named) with
    | none => simp only [Option.map, CommentMetadata.of, (h1 p hl).1, (h1 p hl).2, Option.isSome]
    | some x =>
      simp only [Option.map, CommentMetadata.of, (h2 x hr).1, (h2 x hr).2, (h1 p hl).1, (h1 p hl).2, node_kind, Option.isSome]

theorem fromNode_ren {checks body : Bool} {lefts rights : List Node} {n : Node} (h : SameAround τ checks body lefts n rights) (he : n.extra = true) :
    Comment.fromNode (n.ren τ) (lefts.map (Node.ren τ)) (rights.map (Node.ren τ)) = (Comment.fromNode n lefts rights).map (Comment.ren τ) := by
  simp only [Comment.fromNode, node_kind, node_id, node_text, metadata_ren h he]
  split
  · rfl
  split <;> rfl

/-- The code before the next child. -/
def lastOf (lefts : List Node) : Option (Nat × Nat) := (lefts.find? Node.isCode).map (fun o => (o.id, o.endRow))

include inj in
theorem attach_ren {checks body : Bool} {lefts rights : List Node} {n : Node} (h : SameAround τ checks body lefts n rights) (he : n.extra = true)
    (c : Comment) (cm : CMap) (ps : List Comment) :
    ∃ cm' ps', attachComment c n rights ⟨cm, ps, lastOf lefts⟩ = ⟨cm', ps', lastOf lefts⟩ ∧
      attachComment (c.ren τ) (n.ren τ) (rights.map (Node.ren τ)) ⟨cm.ren τ, ps.map (Comment.ren τ), lastOf (lefts.map (Node.ren τ))⟩ =
        ⟨cm'.ren τ, ps'.map (Comment.ren τ), lastOf (lefts.map (Node.ren τ))⟩ := by
  have ho := congrArg Around.owner h
  simp only [around, node_extra, he, if_pos, find_code] at ho
  unfold attachComment
  simp only [lastOf, find_code, find_nonextra]
  cases hl : lefts.find? Node.isCode with
  | none => exact ⟨_, _, rfl, by simp⟩
  | some o =>
    rw [hl] at ho
    simp only [Option.map_some, Option.some.injEq] at ho
    simp only [Option.map_some, node_id]
    cases hr : rights.find? (fun s => !s.extra) with
    | none =>
      refine ⟨_, _, rfl, ?_⟩
      simp only [Option.map_none]
      rw [cmap_update inj (f' := Bucket.addPost [c.ren τ]) (addPost_ren [c])]
    | some s =>
      simp only [Option.map_some, node_kind, node_id]
      by_cases hp : isPunctuationKind s.kind = true
      · simp only [if_pos hp]
        refine ⟨_, _, rfl, ?_⟩
        rw [cmap_update inj (f' := Bucket.addPre [c.ren τ]) (addPre_ren [c])]
      · simp only [if_neg hp]
        by_cases hq : n.endRow = o.endRow
        · have hq' : (n.ren τ).endRow = (o.ren τ).endRow := by
            have : (n.endRow == o.endRow) = true := by simpa using hq
            rw [this] at ho
            simpa using ho.symm
          simp only [if_pos hq, if_pos hq']
          refine ⟨_, _, rfl, ?_⟩
          rw [cmap_update inj (f' := Bucket.addPost [c.ren τ]) (addPost_ren [c])]
        · have hq' : ¬ (n.ren τ).endRow = (o.ren τ).endRow := by
            have : (n.endRow == o.endRow) = false := by simpa using hq
            rw [this] at ho
            simpa using ho.symm
          simp only [if_neg hq, if_neg hq']
          refine ⟨_, _, rfl, ?_⟩
          simp

theorem lastOf_extra {n : Node} (lefts : List Node) (h : n.isCode = false) : lastOf (n :: lefts) = lastOf lefts := by
  simp only [lastOf, List.find?_cons, h]

include inj in
theorem flush_ren (id : Nat) (cm : CMap) (ps : List Comment) (l l' : Option (Nat × Nat)) :
    flushPending (τ id).id ⟨cm.ren τ, ps.map (Comment.ren τ), l'⟩ = (flushPending id ⟨cm, ps, l⟩).ren τ := by
  cases ps with
  | nil => rfl
  | cons p ps => exact cmap_update inj (addPre_ren (p :: ps)) id cm

theorem code_ren (n : Node) : (n.ren τ).isCode = n.isCode := by
  rw [Node.isCode, node_extra, node_named, node_kind, Node.isCode]

mutual
theorem collect_ren (inj : ∀ a b, (τ a).id = (τ b).id → a = b) (checks : Bool) (pk : String) (pf : Option String) (body : Bool) (lefts rights : List Node) : ∀ (n : Node) (cm : CMap),
    n.skel checks pk pf body lefts rights = (n.ren τ).skel checks pk pf body (lefts.map (Node.ren τ)) (rights.map (Node.ren τ)) →
    collect (n.ren τ) (cm.ren τ) = (collect n cm).map (CMap.ren τ)
  | .mk id kind named extra err field sr er sb eb text children, cm, h => by
    rw [Node.ren, collect, collect]
    split
    · rfl
    simp only [Node.skel, Node.ren, Skel.mk.injEq] at h
    have hk := h.2.2.2.2.2.2.2.2
    simp only [cmap_update inj (f := fun b => b) (f' := fun b => b) (fun _ => rfl)]
    cases children with
    | nil => rw [renAll]; rfl
    | cons c cs =>
      rw [renAll_eq] at hk ⊢
      simp only [List.map_cons]
      have := kids_ren inj checks kind field (isBodyNode pk field kind) (c :: cs) [] (cm.update (fun b => b) id) [] hk
      refine bindE this ?_
      intro st hst
      refine okE ?_
      obtain ⟨cm', ps', la⟩ := st
      simp only [finishPending]
      cases la with
      | none => exact cmap_update inj (addDangling_ren ps') id cm'
      | some q => exact cmap_update inj (addPost_ren ps') q.1 cm'
theorem kids_ren (inj : ∀ a b, (τ a).id = (τ b).id → a = b) (checks : Bool) (pk : String) (pf : Option String) (body : Bool) : ∀ (ns lefts : List Node) (cm : CMap) (ps : List Comment),
    skels checks pk pf body lefts ns = skels checks pk pf body (lefts.map (Node.ren τ)) (ns.map (Node.ren τ)) →
    collectKids (lefts.map (Node.ren τ)) (ns.map (Node.ren τ)) ⟨cm.ren τ, ps.map (Comment.ren τ), lastOf (lefts.map (Node.ren τ))⟩ =
      (collectKids lefts ns ⟨cm, ps, lastOf lefts⟩).map
        (fun st => ⟨st.cm.ren τ, st.pending.map (Comment.ren τ), st.last.map (fun q => ((τ q.1).id, (τ q.1).endRow))⟩)
  | [], lefts, cm, ps, h => by
    rw [List.map_nil, collectKids, collectKids]
    refine okE ?_
    simp only [lastOf, find_code]
    cases lefts.find? Node.isCode with
    | none => rfl
    | some o => simp only [Option.map_some, node_id, node_endRow]
  | n :: ns, lefts, cm, ps, h => by
    rw [List.map_cons, skels, skels, List.cons.injEq] at h
    have ih := fun cm ps => kids_ren inj checks pk pf body ns (n :: lefts) cm ps (by simpa using h.2)
    have ihn := collect_ren inj checks pk pf body lefts ns n
    have hs := h.1
    have ha : SameAround τ checks body lefts n ns := by
      obtain ⟨id, kind, named, extra, err, field, sr, er, sb, eb, text, children⟩ := n
      simp only [Node.skel, Node.ren, Skel.mk.injEq] at hs
      have := hs.2.2.2.2.2.2.1
      rw [SameAround, Node.ren]
      exact this
    rw [List.map_cons, collectKids, collectKids]
    simp only [node_extra, node_named, node_kind, node_id]
    by_cases he : n.extra = true
    · simp only [he, if_true]
      refine bindE (fromNode_ren ha he) ?_
      intro c _
      obtain ⟨cm', ps', e1, e2⟩ := attach_ren inj ha he c cm ps
      rw [e1, e2]
      have hc : n.isCode = false := by rw [Node.isCode, he]; rfl
      have := ih cm' ps'
      rw [List.map_cons, lastOf_extra _ hc, lastOf_extra _ (by rw [code_ren, hc])] at this
      exact this
    · simp only [he, if_false, Bool.false_eq_true]
      by_cases hv : (n.named || isAssociableUnnamedKind n.kind) = true
      · simp only [hv, if_true]
        refine bindE (f := CMap.ren τ) ?_ ?_
        · rw [flush_ren inj (l := lastOf lefts)]
          exact ihn _ hs
        intro cm' _
        have hc : n.isCode = true := by
          simp only [Node.isCode, he]
          simpa [isAssociableUnnamedKind, isPunctuationKind, Bool.or_assoc] using hv
        have := ih cm' []
        simp only [List.map_cons, lastOf, List.find?_cons, hc, code_ren, Option.map_some, node_id] at this
        exact this
      · simp only [hv, if_false, Bool.false_eq_true]
        have hc : n.isCode = false := by
          simp only [Node.isCode, he]
          simpa [isAssociableUnnamedKind, isPunctuationKind, Bool.or_assoc] using hv
        have := ih cm ps
        rw [List.map_cons, lastOf_extra _ hc, lastOf_extra _ (by rw [code_ren, hc])] at this
        exact this
end

end Afmt
