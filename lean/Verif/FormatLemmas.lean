import Verif.ProgLemmas
import Verif.CollectSpec

/-!
# Facts about `formatTree`
-/

namespace Afmt

/-! ### All collected comments have their trailing white space removed -/

theorem mem_all_update {f : Bucket → Bucket} {cs : List Comment} (hf : ∀ b, (f b).all.Perm (b.all ++ cs)) (id : Nat)
    (m : CMap) (c : Comment) : c ∈ (m.update f id).all ↔ c ∈ m.all ∨ c ∈ cs := by
  rw [(CMap.update_all hf id m).mem_iff, List.mem_append]

theorem collect_tidy (n : Node) (cm cm' : CMap) (h : collect n cm = .ok cm') (ht : ∀ c ∈ cm.all, c.Tidy) :
    ∀ c ∈ cm'.all, c.Tidy := by
  refine collect_induct
    (M := fun n cm cm' => (∀ c ∈ cm.all, c.Tidy) → ∀ c ∈ cm'.all, c.Tidy)
    (K := fun p lefts rest st st' => (∀ c ∈ st.cm.all ++ st.pending, c.Tidy) → ∀ c ∈ st'.cm.all ++ st'.pending, c.Tidy)
    ?_ ?_ ?_ ?_ ?_ ?_ ?_ n cm cm' h ht
  · intro n cm _ h; exact h
  · intro n cm _ _ h c hc; exact h c ((CMap.touch_all n.id cm).mem_iff.1 hc)
  · intro n cm st _ _ ih h c hc
    refine ih ?_ c ((finish_all n.id st).mem_iff.1 hc)
    intro c hc
    simp only [List.append_nil] at hc
    exact h c ((CMap.touch_all n.id cm).mem_iff.1 hc)
  · intro p lefts st h; exact h
  · intro p lefts c rights st st' k he hk ih h
    refine ih ?_
    intro x hx
    rcases List.mem_append.1 ((attach_all k c rights st).mem_iff.1 hx) with hx | hx
    · exact h x hx
    · simp only [List.mem_cons, List.not_mem_nil, or_false] at hx
      subst hx
      rw [(fromNode_eq (pid := p.id) hk).1]
      exact trimEnd_not_endsWithSpace _
  · intro p lefts c rights st st' cm ha hM ih h
    refine ih ?_
    intro x hx
    simp only [List.append_nil] at hx
    exact hM (fun y hy => h y ((flush_all c.id st).mem_iff.1 hy)) x hx
  · intro p lefts c rights st st' _ _ ih h; exact ih h

theorem commentMap_tidy {root : Node} {cm : CMap} (h : commentMap root = .ok cm) : ∀ c ∈ cm.all, c.Tidy :=
  collect_tidy root [] cm h (by simp [CMap.all])

/-! ### Shape of a successful run -/

theorem noMissing_iff (cm : CMap) (log : List Comment) : noMissingComments cm log = true ↔ ∀ c ∈ cm.all, c ∈ log := by
  simp [noMissingComments]

theorem enrich_ok {checks : Bool} {depth : Nat} {cfg : Config} {root : Node} {cm : CMap} {out : Str}
    (ht : ∀ c ∈ cm.all, c.Tidy) :
    enrichAndPrint checks depth cfg root cm = .ok out ↔
      ∃ p is log, Prog.new { cm, checks } depth .root (Loc.ofRoot root) = .ok p ∧ cfg.indentSize ≠ 0 ∧
        p.items cm = .ok (is, log) ∧ (∀ c ∈ cm.all, c ∈ log) ∧
        ∃ d, p.build cfg.indentSize cm = .ok (d, log) ∧ d.Items is ∧ d.Plain cfg.indentSize ∧
          out = layout cfg.maxWidth d := by
  unfold enrichAndPrint
  cases hp : Prog.new { cm, checks } depth .root (Loc.ofRoot root) with
  | error e => simp
  | ok p =>
    by_cases hk : cfg.indentSize = 0
    · simp [hk]
    · have hs := build_spec cfg.indentSize cm ht p
      simp only [hk, if_false, ne_eq, not_false_eq_true, true_and]
      cases hi : p.items cm with
      | error e =>
        rw [hi] at hs
        simp only [Agree] at hs
        simp [hs]
      | ok y =>
        obtain ⟨is, log⟩ := y
        rw [hi] at hs
        obtain ⟨d, e, h1, h2⟩ := hs
        simp only [e, prettyPrint_eq]
        constructor
        · intro h
          split at h
          · rename_i hm
            cases h
            exact ⟨p, is, log, rfl, hi, (noMissing_iff cm log).1 hm, d, e, h1, h2, rfl⟩
          · cases h
        · rintro ⟨p', is', log', h0, h3, h4, d', h5, _, _, h6⟩
          cases h0
          rw [hi] at h3
          cases h3
          rw [e] at h5
          cases h5
          simp [(noMissing_iff cm log).2 h4, h6]

/-- Which panic ends the run does not depend on width or (positive) indent size. -/
theorem enrich_error {checks : Bool} {depth : Nat} {cfg cfg' : Config} {root : Node} {cm : CMap} {e : Panic}
    (ht : ∀ c ∈ cm.all, c.Tidy) (hk : cfg.indentSize ≠ 0) (hk' : cfg'.indentSize ≠ 0)
    (h : enrichAndPrint checks depth cfg root cm = .error e) : enrichAndPrint checks depth cfg' root cm = .error e := by
  unfold enrichAndPrint at h ⊢
  cases hp : Prog.new { cm, checks } depth .root (Loc.ofRoot root) with
  | error e' => rw [hp] at h; exact h
  | ok p =>
    rw [hp] at h
    have hs := build_spec cfg.indentSize cm ht p
    have hs' := build_spec cfg'.indentSize cm ht p
    simp only [hk, hk', if_false] at h ⊢
    cases hi : p.items cm with
    | error e' =>
      rw [hi] at hs hs'
      simp only [Agree] at hs hs'
      rw [hs] at h
      rw [hs']
      exact h
    | ok y =>
      obtain ⟨is, log⟩ := y
      rw [hi] at hs hs'
      obtain ⟨d, e1, _⟩ := hs
      obtain ⟨d', e2, _⟩ := hs'
      simp only [e1, prettyPrint_eq] at h
      simp only [e2, prettyPrint_eq]
      split at h
      · cases h
      · rename_i hm; rw [if_neg hm]; exact h

theorem formatTree_error {checks : Bool} {depth : Nat} {cfg cfg' : Config} {root : Node} {e : Panic}
    (hk : cfg.indentSize ≠ 0) (hk' : cfg'.indentSize ≠ 0)
    (h : formatTree checks depth cfg root = .error e) : formatTree checks depth cfg' root = .error e := by
  unfold formatTree at h ⊢
  cases hc : checkParsed root with
  | error e' => rw [hc] at h; exact h
  | ok r =>
    rw [hc] at h
    cases hm : commentMap r with
    | error e' => simp only [hm] at h ⊢; exact h
    | ok cm =>
      simp only [hm] at h ⊢
      exact enrich_error (commentMap_tidy hm) hk hk' h

theorem formatTree_ok {checks : Bool} {depth : Nat} {cfg : Config} {root : Node} {out : Str} :
    formatTree checks depth cfg root = .ok out ↔
      root.hasError = false ∧ ∃ cm, commentMap root = .ok cm ∧ enrichAndPrint checks depth cfg root cm = .ok out := by
  unfold formatTree checkParsed
  cases hr : root.hasError with
  | true =>
    simp only [if_true]
    constructor
    · intro h
      split at h
      · cases h
      · rename_i hx
        exfalso
        split at hx
        · split at hx <;> cases hx
        · cases hx
    · rintro ⟨h, _⟩; cases h
  | false =>
    simp only [Bool.false_eq_true, if_false, true_and]
    cases commentMap root <;> simp

/-- Content of a successful run: a program for the root, its content, and a document with that content. -/
theorem formatTree_content {checks : Bool} {depth : Nat} {cfg : Config} {root : Node} {out : Str}
    (h : formatTree checks depth cfg root = .ok out) :
    ∃ cm p is log d, commentMap root = .ok cm ∧ Prog.new { cm, checks } depth .root (Loc.ofRoot root) = .ok p ∧
      p.items cm = .ok (is, log) ∧ (∀ c ∈ cm.all, c ∈ log) ∧ p.build cfg.indentSize cm = .ok (d, log) ∧ d.Items is ∧
      d.Plain cfg.indentSize ∧ out = layout cfg.maxWidth d := by
  obtain ⟨_, cm, hcm, h⟩ := formatTree_ok.1 h
  obtain ⟨p, is, log, hp, _, hi, hm, d, hb, h1, h2, h3⟩ := (enrich_ok (commentMap_tidy hcm)).1 h
  exact ⟨cm, p, is, log, d, hcm, hp, hi, hm, hb, h1, h2, h3⟩

/-- Segments of the output of a successful run. -/
theorem formatTree_segments {checks : Bool} {depth : Nat} {cfg : Config} {root : Node} {out : Str}
    (h : formatTree checks depth cfg root = .ok out) :
    ∃ cm p is log ss, commentMap root = .ok cm ∧ Prog.new { cm, checks } depth .root (Loc.ofRoot root) = .ok p ∧
      p.items cm = .ok (is, log) ∧ (∀ c ∈ cm.all, c ∈ log) ∧ out = renderSegs ss ∧ itemsOf ss = is ∧ SegsOk ss := by
  obtain ⟨cm, p, is, log, d, hcm, hp, hi, hm, hb, h1, _, h3⟩ := formatTree_content h
  obtain ⟨ss, e1, e2, e3⟩ := layout_segments cfg.maxWidth h1
  exact ⟨cm, p, is, log, ss, hcm, hp, hi, hm, by rw [h3, e1], e2, e3⟩

/-! ### Visible characters of items -/

/-- Visible characters of an item. -/
def Item.ink : Item → Str
  | .code s => Afmt.ink s
  | .comment c => Afmt.ink (c.rendered 0)

theorem ink_joinLines (i : Nat) (ls : List Str) : ink (joinLines i ls) = (ls.map ink).flatten := by
  induction ls with
  | nil => rfl
  | cons l ls ih =>
    cases ls with
    | nil => simp [joinLines]
    | cons m ms => simp [joinLines, ih]

theorem ink_rendered (c : Comment) (i j : Nat) : ink (c.rendered i) = ink (c.rendered j) := by
  unfold Comment.rendered
  cases c.type with
  | line => rfl
  | block => simp [ink_joinLines]

theorem ink_renderSegs (ss : List Seg) (h : ∀ s, Seg.blank s ∈ ss → ink s = []) :
    ink (renderSegs ss) = (itemsOf ss).flatMap Item.ink := by
  induction ss with
  | nil => rfl
  | cons s ss ih =>
    rw [renderSegs_cons, ink_append, ih (fun x hx => h x (by simp [hx]))]
    cases s with
    | blank s =>
      have : itemsOf (.blank s :: ss) = itemsOf ss := rfl
      simp [Seg.render, this, h s (by simp)]
    | code s => simp [Seg.render, itemsOf, Seg.item, Item.ink]
    | comment c i => simp [Seg.render, itemsOf, Seg.item, Item.ink, ink_rendered c i 0]

/-! ### The root program -/

/-- What the root builds. -/
theorem new_root {cm : CMap} {checks : Bool} {depth : Nat} {root : Node} {p : Prog}
    (h : Prog.new { cm, checks } depth .root (Loc.ofRoot root) = .ok p) :
    ∃ members, p = .ifDangling root.id (.rootDangling root.id) (.concat [Prog.intersperseBody members, .nl]) := by
  cases depth with
  | zero => cases h
  | succ depth =>
    simp only [Prog.new, Prog.step, Prog.New.root, bind, Except.bind] at h
    split at h
    · cases h
    · split at h
      · cases h
      · rename_i ms hms
        cases h
        exact ⟨ms, rfl⟩

/-- If the root has dangling comments the final check fails. -/
theorem root_dangling_fails {checks : Bool} {depth : Nat} {cfg : Config} {root : Node} {cm : CMap} {b : Bucket}
    (ht : ∀ c ∈ cm.all, c.Tidy) (hb : cm.get? root.id = some b) (hd : b.dangling ≠ []) (out : Str) :
    enrichAndPrint checks depth cfg root cm ≠ .ok out := by
  intro h
  obtain ⟨p, is, log, hp, _, hi, hm, _⟩ := (enrich_ok ht).1 h
  obtain ⟨ms, rfl⟩ := new_root hp
  have hg : getBucket cm root.id = .ok b := by simp [getBucket, hb]
  simp only [Prog.items, hg, hd, ne_eq, not_false_eq_true, if_true, Except.ok.injEq, Prod.mk.injEq] at hi
  obtain ⟨c, hc⟩ := List.exists_mem_of_ne_nil _ hd
  have := hm c (getBucket_mem hg c (by simp [Bucket.all, hc]))
  rw [← hi.2] at this
  simp at this

end Afmt
