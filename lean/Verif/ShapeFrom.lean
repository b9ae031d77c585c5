import Verif.FormatLemmas
import Verif.CommentText
import Verif.ShapeCollect

/-!
# Where the comments of a map come from

Every comment in the map of a tree is the comment of an extra node of the tree.  The comment of a tree with the same
skeleton has the same printed lines.
-/

namespace Afmt

/-! ### Comments of a map are extras of the tree -/

theorem collect_from (n : Node) (cm cm' : CMap) (h : collect n cm = .ok cm') :
    ∀ c ∈ cm'.all, c ∈ cm.all ∨ ∃ o ∈ n.extras, c = o.comment ∧ o.node.isCommentKind = true := by
  refine collect_induct
    (M := fun n cm cm' => ∀ c ∈ cm'.all, c ∈ cm.all ∨ ∃ o ∈ n.extras, c = o.comment ∧ o.node.isCommentKind = true)
    (K := fun p lefts rest st st' => ∀ c ∈ st'.cm.all ++ st'.pending, c ∈ st.cm.all ++ st.pending ∨
      ∃ o ∈ kidsExtras p.id lefts rest, c = o.comment ∧ o.node.isCommentKind = true)
    ?_ ?_ ?_ ?_ ?_ ?_ ?_ n cm cm' h
  · intro n cm _ c hc; exact .inl hc
  · intro n cm _ _ c hc; exact .inl ((CMap.touch_all n.id cm).mem_iff.1 hc)
  · intro n cm st _ _ ih c hc
    rcases ih c ((finish_all n.id st).mem_iff.1 hc) with h | h
    · simp only [List.append_nil] at h
      exact .inl ((CMap.touch_all n.id cm).mem_iff.1 h)
    · rw [Node.extras_eq]; exact .inr h
  · intro p lefts st c hc; exact .inl hc
  · intro p lefts c rights st st' k he hk ih x hx
    rcases ih x hx with h | ⟨o, ho, h⟩
    · rcases List.mem_append.1 ((attach_all k c rights st).mem_iff.1 h) with h | h
      · exact .inl h
      · simp only [List.mem_cons, List.not_mem_nil, or_false] at h
        subst h
        have := fromNode_eq (pid := p.id) hk
        exact .inr ⟨⟨p.id, c, lefts, rights⟩, by simp [kidsExtras, he], this.1, this.2⟩
    · exact .inr ⟨o, by simp [kidsExtras, ho], h⟩
  · intro p lefts c rights st st' cm ha hM ih x hx
    rcases ih x hx with h | ⟨o, ho, h⟩
    · simp only [List.append_nil] at h
      rcases hM x h with h | ⟨o, ho, h⟩
      · exact .inl ((flush_all c.id st).mem_iff.1 h)
      · exact .inr ⟨o, by simp [kidsExtras, ho], h⟩
    · exact .inr ⟨o, by simp [kidsExtras, ho], h⟩
  · intro p lefts c rights st st' _ _ ih x hx
    rcases ih x hx with h | ⟨o, ho, h⟩
    · exact .inl h
    · exact .inr ⟨o, by simp [kidsExtras, ho], h⟩

theorem comment_from {root : Node} {cm : CMap} (h : collect root [] = .ok cm) {c : Comment} (hc : c ∈ cm.all) :
    ∃ o ∈ root.extras, c = o.comment ∧ o.node.isCommentKind = true := by
  rcases collect_from root [] cm h c hc with h | h
  · simp [CMap.all] at h
  · exact h

/-! ### Extras are nodes of the tree -/

mutual
theorem extras_sub : ∀ n : Node, (n.extras.map (fun o : Occ => o.node.id)).Sublist (idsOf n.children)
  | .mk id kind named extra err field sr er sb eb text children => by
    rw [Node.extras]; exact kidsExtras_sub id [] children
theorem kidsExtras_sub (pid : Nat) : ∀ (lefts ns : List Node),
    ((kidsExtras pid lefts ns).map (fun o : Occ => o.node.id)).Sublist (idsOf ns)
  | _, [] => by simp [kidsExtras]
  | lefts, n :: ns => by
    rw [kidsExtras, idsOf, List.map_append, List.map_append]
    refine List.Sublist.append ?_ (kidsExtras_sub pid _ ns)
    have hn : n.ids = n.id :: idsOf n.children := by cases n; rfl
    rw [hn, show n.id :: idsOf n.children = [n.id] ++ idsOf n.children from rfl]
    refine List.Sublist.append ?_ (extras_sub n)
    split <;> simp
end

mutual
theorem extras_extra : ∀ (n : Node), ∀ o ∈ n.extras, o.node.extra = true
  | .mk id kind named extra err field sr er sb eb text children => by
    rw [Node.extras]; exact kidsExtras_extra id [] children
theorem kidsExtras_extra (pid : Nat) : ∀ (lefts ns : List Node), ∀ o ∈ kidsExtras pid lefts ns, o.node.extra = true
  | _, [] => by simp [kidsExtras]
  | lefts, n :: ns => by
    rw [kidsExtras]
    intro o ho
    rcases List.mem_append.1 ho with ho | ho
    · rcases List.mem_append.1 ho with ho | ho
      · split at ho
        · rename_i he; simp only [List.mem_singleton] at ho; subst ho; exact he
        · cases ho
      · exact extras_extra n o ho
    · exact kidsExtras_extra pid _ ns o ho
end

theorem occ_eq {root : Node} (hn : root.ids.Nodup) {o o' : Occ} (ho : o ∈ root.extras) (ho' : o' ∈ root.extras)
    (h : o.node.id = o'.node.id) : o = o' := by
  have hr : root.ids = root.id :: idsOf root.children := by cases root; rfl
  rw [hr] at hn
  have := (extras_sub root).nodup (List.nodup_cons.1 hn).2
  obtain ⟨i, hi, rfl⟩ := List.getElem_of_mem ho
  obtain ⟨j, hj, rfl⟩ := List.getElem_of_mem ho'
  have := (List.getElem_inj (i := i) (j := j) (h₀ := by simpa using hi) (h₁ := by simpa using hj) this).1 (by simpa using h)
  subst this
  rfl

theorem go_nodes (p : Loc) : ∀ lefts rest, (Loc.childrenGo p lefts rest).map Loc.node = rest
  | _, [] => rfl
  | lefts, c :: rest => by rw [Loc.childrenGo, List.map_cons, go_nodes p (c :: lefts) rest]

theorem child_loc {root : Node} {l : Loc} (hl : In root l) {c : Node} (hc : c ∈ l.node.children) :
    ∃ m, In root m ∧ m.node = c := by
  have : c ∈ l.children.map Loc.node := by rw [show l.children = Loc.childrenGo l [] l.node.children from rfl, go_nodes]; exact hc
  obtain ⟨m, hm, e⟩ := List.mem_map.1 this
  exact ⟨m, .child hl hm, e⟩

mutual
theorem extras_in {root : Node} : ∀ (n : Node) (l : Loc), In root l → l.node = n → ∀ o ∈ n.extras, ∃ m, In root m ∧ m.node = o.node
  | .mk id kind named extra err field sr er sb eb text children, l, hl, e => by
    rw [Node.extras]
    exact kidsExtras_in l hl id [] children (fun c hc => by rw [e]; exact hc)
theorem kidsExtras_in {root : Node} (l : Loc) (hl : In root l) (pid : Nat) : ∀ (lefts ns : List Node), (∀ c ∈ ns, c ∈ l.node.children) →
    ∀ o ∈ kidsExtras pid lefts ns, ∃ m, In root m ∧ m.node = o.node
  | _, [], _ => by simp [kidsExtras]
  | lefts, n :: ns, h => by
    rw [kidsExtras]
    intro o ho
    obtain ⟨m, hm, e⟩ := child_loc hl (h n (by simp))
    rcases List.mem_append.1 ho with ho | ho
    · rcases List.mem_append.1 ho with ho | ho
      · split at ho
        · simp only [List.mem_singleton] at ho; subst ho; exact ⟨m, hm, e⟩
        · cases ho
      · exact extras_in n m hm e o ho
    · exact kidsExtras_in l hl pid _ ns (fun c hc => h c (by simp [hc])) o ho
end

/-! ### The printed lines decide how a comment is printed -/

theorem line_inj {a b : Str} (ha : '\n' ∉ a) (hb : '\n' ∉ b) {x y : Str} (h : a ++ '\n' :: x = b ++ '\n' :: y) : a = b ∧ x = y := by
  induction a generalizing b with
  | nil =>
    cases b with
    | nil => exact ⟨rfl, (List.cons.inj h).2⟩
    | cons d b => exact absurd ((List.cons.inj h).1 ▸ List.mem_cons_self) hb
  | cons c a ih =>
    cases b with
    | nil => exact absurd ((List.cons.inj h).1 ▸ List.mem_cons_self) ha
    | cons d b =>
      obtain ⟨h1, h2⟩ := List.cons.inj h
      obtain ⟨h3, h4⟩ := ih (fun hc => ha (by simp [hc])) (fun hc => hb (by simp [hc])) h2
      exact ⟨by rw [h1, h3], h4⟩

theorem lines_inj : ∀ {xs ys : List Str}, (∀ x ∈ xs, '\n' ∉ x) → (∀ y ∈ ys, '\n' ∉ y) →
    xs.flatMap (· ++ ['\n']) = ys.flatMap (· ++ ['\n']) → xs = ys
  | [], [], _, _, _ => rfl
  | [], y :: ys, _, _, h => by simp at h
  | x :: xs, [], _, _, h => by simp at h
  | x :: xs, y :: ys, hx, hy, h => by
    simp only [List.flatMap_cons, List.append_assoc, List.cons_append, List.nil_append] at h
    obtain ⟨h1, h2⟩ := line_inj (hx x (by simp)) (hy y (by simp)) h
    rw [h1, lines_inj (fun z hz => hx z (by simp [hz])) (fun z hz => hy z (by simp [hz])) h2]

theorem drawn_inj {kind : String} {s t : Str}
    (h : (drawnLines kind s).flatMap (· ++ ['\n']) = (drawnLines kind t).flatMap (· ++ ['\n'])) : drawnLines kind s = drawnLines kind t := by
  unfold drawnLines at h ⊢
  split at h
  · rename_i hk
    rw [if_pos hk, if_pos hk]
    simp only [List.flatMap_cons, List.flatMap_nil, List.append_nil] at h
    rw [List.append_cancel_right h]
  · rename_i hk
    rw [if_neg hk, if_neg hk]
    exact lines_inj (nl_blockLines _) (nl_blockLines _) h

theorem occ_build {checks : Bool} {root : Node} {τ : Nat → Pos} (hs : skeleton checks root = skeleton checks (root.ren τ))
    {o : Occ} (ho : o ∈ root.extras) (_ : o.node.isCommentKind = true) : (o.comment.ren τ).build = o.comment.build := by
  obtain ⟨l, hl, e⟩ := extras_in root ⟨root, []⟩ .root rfl o ho
  have he := extras_extra root o ho
  have := congrArg Skel.word (look τ hs hl)
  have hsh : l.node.shown l.pkind l.pfield = true := by rw [e, Node.shown, he]; rfl
  rw [skel_word, skel_word, if_pos hsh, pkind_ren, pfield_ren] at this
  rw [show (l.ren τ).node = l.node.ren τ from rfl, shown_ren, if_pos hsh, Node.spelling, Node.spelling, node_kind, node_extra,
    node_field, node_text, Option.some.injEq, e] at this
  have key : drawnLines o.node.kind o.node.text = drawnLines o.node.kind (τ o.node.id).text := by
    split at this
    · exact drawn_inj this
    · rw [lettersOf, he] at this
      have : o.node.text = (τ o.node.id).text := this
      rw [← this]
  have hv : (o.comment.ren τ).value = trimEnd (τ o.node.id).text := rfl
  have ht : (o.comment.ren τ).type = o.comment.type := rfl
  have hv' : o.comment.value = trimEnd o.node.text := rfl
  unfold Comment.build
  rw [ht, hv, hv']
  unfold drawnLines at key
  by_cases hl : o.node.kind == "line_comment"
  · have : o.comment.type = .line := by simp [Occ.comment, hl]
    rw [this]
    rw [if_pos hl, if_pos hl] at key
    rw [(List.cons.inj key).1]
  · have : o.comment.type = .block := by simp [Occ.comment, hl]
    rw [this]
    rw [if_neg hl, if_neg hl] at key
    rw [key]

/-- Comments in the map are printed alike, and they can be told apart, after a renaming. -/
structure SameText (τ : Nat → Pos) (cm : CMap) : Prop where
  build : ∀ c ∈ cm.all, (c.ren τ).build = c.build
  inj : ∀ c ∈ cm.all, ∀ d ∈ cm.all, c.ren τ = d.ren τ → c = d

theorem sameText {checks : Bool} {root : Node} {τ : Nat → Pos} (inj : ∀ a b, (τ a).id = (τ b).id → a = b)
    (hs : skeleton checks root = skeleton checks (root.ren τ)) (hn : root.ids.Nodup) {cm : CMap} (h : collect root [] = .ok cm) :
    SameText τ cm := by
  constructor
  · intro c hc
    obtain ⟨o, ho, rfl, hk⟩ := comment_from h hc
    exact occ_build hs ho hk
  · intro c hc d hd e
    obtain ⟨o, ho, rfl, _⟩ := comment_from h hc
    obtain ⟨o', ho', rfl, _⟩ := comment_from h hd
    have := inj _ _ (congrArg Comment.id e)
    rw [occ_eq hn ho ho' this]

/-- A renaming that keeps the comments. -/
theorem sameText_id {τ : Nat → Pos} {cm : CMap} (h : ∀ c ∈ cm.all, c.ren τ = c) : SameText τ cm :=
  ⟨fun c hc => by rw [h c hc], fun c hc d hd e => by rw [h c hc, h d hd] at e; exact e⟩

/-! ### Printed comments are in the map -/

mutual
theorem build_sub (k : Nat) (cm : CMap) : ∀ (p : Prog) (d : Doc) (log : List Comment), Prog.build k cm p = .ok (d, log) →
    ∀ c ∈ log, c ∈ cm.all
  | .txt s, d, log, h | .nl, d, log, h | .softline, d, log, h | .maybeline, d, log, h | .forceBreak, d, log, h | .sep s, d, log, h => by
    rw [Prog.build] at h; cases h; exact fun _ h => nomatch h
  | .fail e, d, log, h => by rw [Prog.build] at h; cases h
  | .concat ps, d, log, h => by
    rw [Prog.build] at h
    split at h
    · rename_i hb; cases h; exact builds_sub k cm ps _ _ hb
    · cases h
  | .group p, d, log, h | .indent p, d, log, h | .dedent p, d, log, h => by
    rw [Prog.build] at h
    split at h
    · rename_i hb; cases h; exact build_sub k cm p _ _ hb
    · cases h
  | .pre id, d, log, h | .post id, d, log, h => by
    rw [Prog.build] at h
    split at h
    · rename_i hb; cases h; exact fun c hc => getBucket_mem hb c (by simp [Bucket.all, hc])
    · cases h
  | .dangling id, d, log, h => by
    rw [Prog.build] at h
    split at h
    · rename_i hb
      split at h
      · cases h
      · cases h; exact fun c hc => getBucket_mem hb c (by simp [Bucket.all, hc])
    · cases h
  | .rootDangling id, d, log, h => by
    rw [Prog.build] at h
    split at h
    · cases h; exact fun _ h => nomatch h
    · cases h
  | .punct p, d, log, h => by
    rw [Prog.build] at h
    split at h
    · rename_i hb; cases h
      intro c hc
      rcases List.mem_append.1 hc with hc | hc <;> exact getBucket_mem hb c (by simp [Bucket.all, hc])
    · cases h
  | .ifDangling id p q, d, log, h => by
    rw [Prog.build] at h
    split at h
    · split at h
      · exact build_sub k cm p _ _ h
      · exact build_sub k cm q _ _ h
    · cases h
theorem builds_sub (k : Nat) (cm : CMap) : ∀ (ps : List Prog) (ds : List Doc) (log : List Comment),
    Prog.builds k cm ps = .ok (ds, log) → ∀ c ∈ log, c ∈ cm.all
  | [], ds, log, h => by rw [Prog.builds] at h; cases h; exact fun _ h => nomatch h
  | p :: ps, ds, log, h => by
    rw [Prog.builds] at h
    split at h
    · cases h
    · rename_i hb
      split at h
      · cases h
      · rename_i hbs
        cases h
        intro c hc
        rcases List.mem_append.1 hc with hc | hc
        · exact build_sub k cm p _ _ hb c hc
        · exact builds_sub k cm ps _ _ hbs c hc
end

end Afmt
