import Verif.Collect

/-!
# Lemmas about `collect_comments`

First the specification vocabulary (occurrences of extras in a tree, in source order), then an induction principle for
`collect` and the invariants.
-/

namespace Afmt

/-- An occurrence of an extra (comment) in a tree: id of the parent, the node, left siblings (nearest first) and right
siblings. -/
structure Occ where
  parent : Nat
  node : Node
  lefts : List Node
  rights : List Node

mutual
/-- All extras strictly below a node, in source order, wherever they are. -/
def Node.extras : Node → List Occ
  | .mk id _ _ _ _ _ _ _ _ _ _ children => kidsExtras id [] children
/-- All extras in a list of siblings and below. -/
def kidsExtras (pid : Nat) (lefts : List Node) : List Node → List Occ
  | [] => []
  | c :: r => (if c.extra then [⟨pid, c, lefts, r⟩] else []) ++ c.extras ++ kidsExtras pid (c :: lefts) r
end

/-- A node comments can be attached to: it is no comment, and it is a named node or one of the tokens `,` `;` `else`. -/
def Node.associable (n : Node) : Bool := !n.extra && (n.named || isAssociableUnnamedKind n.kind)

mutual
/-- Comments and bare tokens have no children (true of every tree the parser produces for Apex: tokens and comments are
lexed as a whole). -/
def Node.Closed : Node → Prop
  | .mk _ _ _ _ _ _ _ _ _ _ _ children => kidsClosed children
/-- `Node.Closed` for siblings. -/
def kidsClosed : List Node → Prop
  | [] => True
  | c :: r => (c.associable = false → c.children = []) ∧ c.Closed ∧ kidsClosed r
end

/-- The node is a line or a block comment. -/
def Node.isCommentKind (n : Node) : Bool := n.kind == "line_comment" || n.kind == "block_comment"

/-- The comment value an occurrence stands for. -/
def Occ.comment (o : Occ) : Comment :=
  let t := if o.node.kind == "line_comment" then CommentType.line else CommentType.block
  { id := o.node.id, value := trimEnd o.node.text, type := t,
    meta' := CommentMetadata.of o.node t (o.lefts.find? (·.named)) (o.rights.find? (·.named)) }

theorem fromNode_eq {pid : Nat} {n : Node} {l r : List Node} {c : Comment} (h : Comment.fromNode n l r = .ok c) :
    c = (Occ.mk pid n l r).comment ∧ n.isCommentKind = true := by
  unfold Comment.fromNode at h
  simp only at h
  split at h
  · rename_i hk
    cases h
    simp [Occ.comment, Node.isCommentKind, hk]
  · split at h
    · rename_i hk
      cases h
      simp [Occ.comment, Node.isCommentKind, hk]
    · cases h

theorem fromNode_ok {n : Node} (l r : List Node) (h : n.isCommentKind = true) :
    ∃ c, Comment.fromNode n l r = .ok c := by
  unfold Comment.fromNode
  simp only [Node.isCommentKind, Bool.or_eq_true, beq_iff_eq] at h
  simp only
  split
  · exact ⟨_, rfl⟩
  · split
    · exact ⟨_, rfl⟩
    · rename_i h1 h2; rcases h with h | h <;> contradiction

theorem associable_iff_visited {n : Node} (h : n.extra = false) :
    isVisited n.named n.extra n.kind = (n.named || isAssociableUnnamedKind n.kind) := by
  simp [isVisited, h]

/-! ### Induction principle -/

section Induct
variable {M : Node → CMap → CMap → Prop} {K : Node → List Node → List Node → CollectSt → CollectSt → Prop}
  (skip : ∀ n cm, isVisited n.named n.extra n.kind = false → M n cm cm)
  (leaf : ∀ n cm, isVisited n.named n.extra n.kind = true → n.children = [] → M n cm (cm.update (fun b => b) n.id))
  (node : ∀ n cm st, isVisited n.named n.extra n.kind = true → n.children ≠ [] →
    K n [] n.children ⟨cm.update (fun b => b) n.id, [], none⟩ st → M n cm (finishPending n.id st))
  (nil : ∀ p lefts st, K p lefts [] st st)
  (ext : ∀ p lefts c rights st st' k, c.extra = true → Comment.fromNode c lefts rights = .ok k →
    K p (c :: lefts) rights (attachComment k c rights st) st' → K p lefts (c :: rights) st st')
  (sub : ∀ p lefts c rights st st' cm, c.associable = true → M c (flushPending c.id st) cm →
    K p (c :: lefts) rights ⟨cm, [], some (c.id, c.endRow)⟩ st' → K p lefts (c :: rights) st st')
  (tok : ∀ p lefts c rights st st', c.associable = false → c.extra = false →
    K p (c :: lefts) rights st st' → K p lefts (c :: rights) st st')
include skip leaf node nil ext sub tok

mutual
theorem collect_induct : ∀ (n : Node) (cm cm' : CMap), collect n cm = .ok cm' → M n cm cm'
  | .mk id kind named extra err field sr er sb eb text children, cm, cm', h => by
    unfold collect at h
    by_cases hv : isVisited named extra kind = true
    · simp only [hv, Bool.not_true, Bool.false_eq_true, if_false] at h
      cases children with
      | nil => cases h; exact leaf ⟨id, kind, named, extra, err, field, sr, er, sb, eb, text, []⟩ cm hv rfl
      | cons c cs =>
        simp only [bind, Except.bind] at h
        split at h
        · cases h
        · rename_i st hst
          cases h
          exact node ⟨id, kind, named, extra, err, field, sr, er, sb, eb, text, c :: cs⟩ cm st hv (by simp)
            (collectKids_induct _ [] (c :: cs) _ st hst)
    · simp only [Bool.not_eq_true] at hv
      simp only [hv, Bool.not_false, if_true] at h
      cases h
      exact skip ⟨id, kind, named, extra, err, field, sr, er, sb, eb, text, children⟩ cm hv
theorem collectKids_induct : ∀ (p : Node) (lefts rest : List Node) (st st' : CollectSt),
    collectKids lefts rest st = .ok st' → K p lefts rest st st'
  | p, lefts, [], st, st', h => by
    unfold collectKids at h; cases h; exact nil p lefts st
  | p, lefts, child :: rights, st, st', h => by
    unfold collectKids at h
    by_cases he : child.extra = true
    · simp only [he, if_true, bind, Except.bind] at h
      split at h
      · cases h
      · rename_i k hk
        exact ext p lefts child rights st st' k he hk (collectKids_induct p _ rights _ st' h)
    · simp only [he, Bool.false_eq_true, if_false] at h
      simp only [Bool.not_eq_true] at he
      by_cases ha : (child.named || isAssociableUnnamedKind child.kind) = true
      · simp only [ha, if_true, bind, Except.bind] at h
        split at h
        · cases h
        · rename_i cm hcm
          exact sub p lefts child rights st st' cm (by simp [Node.associable, he, ha])
            (collect_induct child _ cm hcm) (collectKids_induct p _ rights _ st' h)
      · simp only [ha, Bool.false_eq_true, if_false] at h
        simp only [Bool.not_eq_true] at ha
        exact tok p lefts child rights st st' (by simp [Node.associable, he, ha]) he
          (collectKids_induct p _ rights st st' h)
end
end Induct

/-! ### The association list -/

theorem CMap.update_all {f : Bucket → Bucket} {cs : List Comment} (hf : ∀ b, (f b).all.Perm (b.all ++ cs)) (id : Nat) :
    ∀ m : CMap, (CMap.update f id m).all.Perm (m.all ++ cs)
  | [] => by
    have := hf Bucket.empty
    simp only [CMap.update, CMap.all, List.map_cons, List.map_nil, List.flatten_cons, List.flatten_nil,
      List.append_nil, List.nil_append]
    simpa [Bucket.all, Bucket.empty] using this
  | (k, b) :: m => by
    unfold CMap.update
    have ih := CMap.update_all hf id m
    simp only [CMap.all] at *
    split
    · simp only [List.map_cons, List.flatten_cons]
      refine ((hf b).append_right _).trans ?_
      simp only [List.append_assoc]
      exact List.perm_append_comm.append_left _
    · simp only [List.map_cons, List.flatten_cons, List.append_assoc]
      exact ih.append_left _

theorem Bucket.addPre_all (cs : List Comment) (b : Bucket) : (Bucket.addPre cs b).all.Perm (b.all ++ cs) := by
  simp only [Bucket.addPre, Bucket.all, List.append_assoc]
  refine List.Perm.append_left _ ?_
  rw [← List.append_assoc b.post]
  exact List.perm_append_comm

theorem Bucket.addPost_all (cs : List Comment) (b : Bucket) : (Bucket.addPost cs b).all.Perm (b.all ++ cs) := by
  simp only [Bucket.addPost, Bucket.all, List.append_assoc]
  exact (List.perm_append_comm.append_left _).append_left _

theorem Bucket.addDangling_all (cs : List Comment) (b : Bucket) :
    (Bucket.addDangling cs b).all.Perm (b.all ++ cs) := by
  simp [Bucket.addDangling, Bucket.all]

theorem CMap.touch_all (id : Nat) (m : CMap) : (CMap.update (fun b => b) id m).all.Perm m.all := by
  have := CMap.update_all (f := fun b => b) (cs := []) (fun b => by simp) id m
  simpa using this

theorem attach_all (k : Comment) (c : Node) (rights : List Node) (st : CollectSt) :
    ((attachComment k c rights st).cm.all ++ (attachComment k c rights st).pending).Perm
      (st.cm.all ++ st.pending ++ [k]) := by
  have h1 : ∀ (f : Bucket → Bucket) id, (∀ b, (f b).all.Perm (b.all ++ [k])) →
      ((st.cm.update f id).all ++ st.pending).Perm (st.cm.all ++ st.pending ++ [k]) := by
    intro f id hf
    refine ((CMap.update_all hf id st.cm).append_right _).trans ?_
    simp only [List.append_assoc]
    exact List.perm_append_comm.append_left _
  unfold attachComment
  split
  · split
    · exact h1 _ _ (Bucket.addPost_all [k])
    · split
      · exact h1 _ _ (Bucket.addPre_all [k])
      · split
        · exact h1 _ _ (Bucket.addPost_all [k])
        · simp
  · simp

theorem flush_all (id : Nat) (st : CollectSt) : (flushPending id st).all.Perm (st.cm.all ++ st.pending) := by
  unfold flushPending
  split
  · rename_i h; simp [h]
  · exact CMap.update_all (Bucket.addPre_all _) id st.cm

theorem finish_all (id : Nat) (st : CollectSt) : (finishPending id st).all.Perm (st.cm.all ++ st.pending) := by
  unfold finishPending
  split
  · exact CMap.update_all (Bucket.addPost_all _) _ st.cm
  · exact CMap.update_all (Bucket.addDangling_all _) _ st.cm

theorem Node.extras_eq (n : Node) : n.extras = kidsExtras n.id [] n.children := by
  cases n; simp [Node.extras]

theorem Node.closed_eq (n : Node) : n.Closed = kidsClosed n.children := by
  cases n; simp [Node.Closed]

theorem extras_of_leaf {n : Node} (h : n.children = []) : n.extras = [] := by
  rw [Node.extras_eq, h]; simp [kidsExtras]

/-- Conservation. -/
theorem collect_conserves (n : Node) (cm cm' : CMap) (h : collect n cm = .ok cm') (hc : n.Closed)
    (hv : isVisited n.named n.extra n.kind = true) : cm'.all.Perm (cm.all ++ n.extras.map Occ.comment) := by
  refine collect_induct
    (M := fun n cm cm' => n.Closed → isVisited n.named n.extra n.kind = true →
      cm'.all.Perm (cm.all ++ n.extras.map Occ.comment))
    (K := fun p lefts rest st st' => kidsClosed rest →
      (st'.cm.all ++ st'.pending).Perm
        (st.cm.all ++ st.pending ++ (kidsExtras p.id lefts rest).map Occ.comment))
    ?_ ?_ ?_ ?_ ?_ ?_ ?_ n cm cm' h hc hv
  · intro n cm hv _ hv'; rw [hv] at hv'; cases hv'
  · intro n cm _ hch _ _
    rw [extras_of_leaf hch]
    simpa using CMap.touch_all n.id cm
  · intro n cm st hv hne ih hc _
    rw [Node.closed_eq] at hc
    have := ih hc
    rw [Node.extras_eq]
    refine (finish_all n.id st).trans (this.trans ?_)
    simp only [List.append_nil]
    exact (CMap.touch_all n.id cm).append_right _
  · intro p lefts st _; simp [kidsExtras]
  · intro p lefts c rights st st' k he hk ih hc
    simp only [kidsClosed] at hc
    have hleaf : c.children = [] := hc.1 (by simp [Node.associable, he])
    refine (ih hc.2.2).trans ?_
    refine ((attach_all k c rights st).append_right _).trans ?_
    simp only [kidsExtras, he, if_true, extras_of_leaf hleaf, List.append_nil, List.map_append, List.map_cons,
      List.map_nil, (fromNode_eq (pid := p.id) hk).1, List.append_assoc]
    exact .refl _
  · intro p lefts c rights st st' cm ha hM ih hc
    simp only [kidsClosed] at hc
    have he : c.extra = false := by simp [Node.associable] at ha; exact ha.1
    have hv : isVisited c.named c.extra c.kind = true := by
      rw [associable_iff_visited he]; simp only [Node.associable, he] at ha; simpa using ha
    refine (ih hc.2.2).trans ?_
    simp only [kidsExtras, he, Bool.false_eq_true, if_false, List.nil_append, List.map_append, List.append_nil]
    rw [← List.append_assoc]
    refine List.Perm.append_right _ ?_
    exact (hM hc.2.1 hv).trans ((flush_all c.id st).append_right _)
  · intro p lefts c rights st st' ha he ih hc
    simp only [kidsClosed] at hc
    refine (ih hc.2.2).trans ?_
    simp [kidsExtras, he, extras_of_leaf (hc.1 ha)]

/-! ### Success -/

mutual
theorem collect_ok : ∀ (n : Node) (cm : CMap), (∀ o ∈ n.extras, o.node.isCommentKind = true) →
    ∃ cm', collect n cm = .ok cm'
  | .mk id kind named extra err field sr er sb eb text children, cm, h => by
    unfold collect
    by_cases hv : isVisited named extra kind = true
    · simp only [hv, Bool.not_true, Bool.false_eq_true, if_false]
      cases children with
      | nil => exact ⟨_, rfl⟩
      | cons c cs =>
        simp only [Node.extras] at h
        obtain ⟨st, hst⟩ := collectKids_ok id [] (c :: cs) ⟨cm.update (fun b => b) id, [], none⟩ h
        simp only [hst, bind, Except.bind]
        exact ⟨_, rfl⟩
    · simp only [Bool.not_eq_true] at hv
      simp only [hv, Bool.not_false, if_true]
      exact ⟨_, rfl⟩
theorem collectKids_ok : ∀ (pid : Nat) (lefts rest : List Node) (st : CollectSt),
    (∀ o ∈ kidsExtras pid lefts rest, o.node.isCommentKind = true) → ∃ st', collectKids lefts rest st = .ok st'
  | pid, lefts, [], st, _ => ⟨st, by simp [collectKids]⟩
  | pid, lefts, child :: rights, st, h => by
    unfold collectKids
    simp only [kidsExtras, List.mem_append] at h
    by_cases he : child.extra = true
    · simp only [he, if_true, bind, Except.bind]
      obtain ⟨k, hk⟩ := fromNode_ok lefts rights (n := child) (h ⟨pid, child, lefts, rights⟩ (by simp [he]))
      simp only [hk]
      exact collectKids_ok pid _ rights _ (fun o ho => h o (Or.inr ho))
    · simp only [he, Bool.false_eq_true, if_false]
      by_cases ha : (child.named || isAssociableUnnamedKind child.kind) = true
      · simp only [ha, if_true, bind, Except.bind]
        obtain ⟨cm, hcm⟩ := collect_ok child (flushPending child.id st) (fun o ho => h o (Or.inl (Or.inr ho)))
        simp only [hcm]
        exact collectKids_ok pid _ rights _ (fun o ho => h o (Or.inr ho))
      · simp only [ha, Bool.false_eq_true, if_false]
        exact collectKids_ok pid _ rights _ (fun o ho => h o (Or.inr ho))
end

/-- If collection succeeds every extra is a comment. -/
theorem collect_kinds (n : Node) (cm cm' : CMap) (h : collect n cm = .ok cm') (hc : n.Closed)
    (hv : isVisited n.named n.extra n.kind = true) : ∀ o ∈ n.extras, o.node.isCommentKind = true := by
  refine collect_induct
    (M := fun n _ _ => n.Closed → isVisited n.named n.extra n.kind = true →
      ∀ o ∈ n.extras, o.node.isCommentKind = true)
    (K := fun p lefts rest _ _ => kidsClosed rest → ∀ o ∈ kidsExtras p.id lefts rest, o.node.isCommentKind = true)
    ?_ ?_ ?_ ?_ ?_ ?_ ?_ n cm cm' h hc hv
  · intro n cm hv _ hv'; rw [hv] at hv'; cases hv'
  · intro n cm _ hch _ _; rw [extras_of_leaf hch]; simp
  · intro n cm st hv hne ih hc _
    rw [Node.closed_eq] at hc; rw [Node.extras_eq]; exact ih hc
  · intro p lefts st _; simp [kidsExtras]
  · intro p lefts c rights st st' k he hk ih hc o ho
    simp only [kidsClosed] at hc
    have hleaf : c.children = [] := hc.1 (by simp [Node.associable, he])
    simp only [kidsExtras, he, if_true, extras_of_leaf hleaf, List.append_nil, List.cons_append, List.nil_append,
      List.mem_cons] at ho
    rcases ho with rfl | ho
    · exact (fromNode_eq (pid := p.id) hk).2
    · exact ih hc.2.2 o ho
  · intro p lefts c rights st st' cm ha hM ih hc o ho
    simp only [kidsClosed] at hc
    have he : c.extra = false := by simp [Node.associable] at ha; exact ha.1
    have hv : isVisited c.named c.extra c.kind = true := by
      rw [associable_iff_visited he]; simp only [Node.associable, he] at ha; simpa using ha
    simp only [kidsExtras, he, Bool.false_eq_true, if_false, List.nil_append, List.mem_append] at ho
    rcases ho with ho | ho
    · exact hM hc.2.1 hv o ho
    · exact ih hc.2.2 o ho
  · intro p lefts c rights st st' ha he ih hc o ho
    simp only [kidsClosed] at hc
    simp only [kidsExtras, he, extras_of_leaf (hc.1 ha), Bool.false_eq_true, if_false, List.nil_append] at ho
    exact ih hc.2.2 o ho

end Afmt
