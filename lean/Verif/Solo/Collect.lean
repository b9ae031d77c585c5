import Verif.CollectSpec
import Verif.Skel

/-!
# Comments of a member do not depend on the other members
-/

namespace Afmt
namespace Solo

/-- The two maps have the same buckets for these ids. -/
def Agree (S : Nat → Prop) (a b : CMap) : Prop := ∀ i, S i → a.get? i = b.get? i

theorem agree_update {S : Nat → Prop} {a b : CMap} (h : Agree S a b) (f : Bucket → Bucket) (i : Nat) : Agree S (a.update f i) (b.update f i) := by
  intro k hk
  rw [get?_update, get?_update]
  split
  · rename_i e; subst e; rw [h k hk]
  · exact h k hk

theorem agree_flush {S : Nat → Prop} {st : CollectSt} {b : CMap} (h : Agree S st.cm b) (i : Nat) :
    Agree S (flushPending i st) (flushPending i ⟨b, st.pending, st.last⟩) := by
  unfold flushPending
  cases st.pending with
  | nil => exact h
  | cons p ps => exact agree_update h _ _

theorem agree_finish {S : Nat → Prop} {st : CollectSt} {b : CMap} (h : Agree S st.cm b) (i : Nat) :
    Agree S (finishPending i st) (finishPending i ⟨b, st.pending, st.last⟩) := by
  unfold finishPending
  cases st.last with
  | none => exact agree_update h _ _
  | some l => exact agree_update h _ _

theorem agree_attach {S : Nat → Prop} {st : CollectSt} {b : CMap} (h : Agree S st.cm b) (k : Comment) (c : Node) (rights : List Node) :
    ∃ b', attachComment k c rights ⟨b, st.pending, st.last⟩ = ⟨b', (attachComment k c rights st).pending, (attachComment k c rights st).last⟩ ∧
      Agree S (attachComment k c rights st).cm b' := by
  unfold attachComment
  cases st.last with
  | none => exact ⟨b, rfl, h⟩
  | some l =>
    obtain ⟨li, lr⟩ := l
    cases rights.find? (fun s => !s.extra) with
    | none => exact ⟨_, rfl, agree_update h _ _⟩
    | some s =>
      simp only
      by_cases h1 : isPunctuationKind s.kind = true
      · simp only [h1, if_true]; exact ⟨_, rfl, agree_update h _ _⟩
      · simp only [h1, if_false]
        by_cases h2 : c.endRow = lr
        · simp only [h2, if_true]; exact ⟨_, rfl, agree_update h _ _⟩
        · simp only [h2, if_false]; exact ⟨b, rfl, h⟩

theorem collect_node {n : Node} {cm : CMap} {st : CollectSt} (hv : isVisited n.named n.extra n.kind = true) (hc : n.children ≠ [])
    (h : collectKids [] n.children ⟨cm.update (fun b => b) n.id, [], none⟩ = .ok st) : collect n cm = .ok (finishPending n.id st) := by
  obtain ⟨id, kind, named, extra, err, field, sr, er, sb, eb, text, children⟩ := n
  simp only [Node.named, Node.extra, Node.kind, Node.id, Node.children] at *
  unfold collect
  simp only [hv, Bool.not_true, Bool.false_eq_true, if_false]
  cases children with
  | nil => exact absurd rfl hc
  | cons c cs => simp only [h, bind, Except.bind]

theorem collect_leaf {n : Node} {cm : CMap} (hv : isVisited n.named n.extra n.kind = true) (hc : n.children = []) :
    collect n cm = .ok (cm.update (fun b => b) n.id) := by
  obtain ⟨id, kind, named, extra, err, field, sr, er, sb, eb, text, children⟩ := n
  simp only [Node.named, Node.extra, Node.kind, Node.id, Node.children] at *
  subst hc
  unfold collect
  simp only [hv, Bool.not_true, Bool.false_eq_true, if_false]

theorem collect_skip {n : Node} {cm : CMap} (hv : isVisited n.named n.extra n.kind = false) : collect n cm = .ok cm := by
  obtain ⟨id, kind, named, extra, err, field, sr, er, sb, eb, text, children⟩ := n
  simp only [Node.named, Node.extra, Node.kind] at *
  unfold collect
  simp only [hv, Bool.not_false, if_true]

/-- The buckets of a set of ids after collecting depend on the buckets of these ids before only. -/
theorem collect_agree (n : Node) (cm cm' : CMap) (h : collect n cm = .ok cm') :
    ∀ (S : Nat → Prop) (b : CMap), Agree S cm b → ∃ b', collect n b = .ok b' ∧ Agree S cm' b' := by
  refine collect_induct
    (M := fun n cm cm' => ∀ (S : Nat → Prop) (b : CMap), Agree S cm b → ∃ b', collect n b = .ok b' ∧ Agree S cm' b')
    (K := fun _ lefts rest st st' => ∀ (S : Nat → Prop) (b : CMap), Agree S st.cm b →
      ∃ b', collectKids lefts rest ⟨b, st.pending, st.last⟩ = .ok ⟨b', st'.pending, st'.last⟩ ∧ Agree S st'.cm b')
    ?_ ?_ ?_ ?_ ?_ ?_ ?_ n cm cm' h
  · intro n cm hv S b hb
    exact ⟨b, collect_skip hv, hb⟩
  · intro n cm hv hc S b hb
    exact ⟨_, collect_leaf hv hc, agree_update hb _ _⟩
  · intro n cm st hv hc ih S b hb
    obtain ⟨b', h1, h2⟩ := ih S (b.update (fun b => b) n.id) (agree_update hb _ _)
    exact ⟨_, collect_node hv hc h1, agree_finish h2 _⟩
  · intro p lefts st S b hb
    exact ⟨b, by unfold collectKids; rfl, hb⟩
  · intro p lefts c rights st st' k he hk ih S b hb
    obtain ⟨b1, h1, h2⟩ := agree_attach hb k c rights
    obtain ⟨b', h3, h4⟩ := ih S b1 h2
    refine ⟨b', ?_, h4⟩
    unfold collectKids
    simp only [he, if_true, hk, bind, Except.bind, h1, h3]
  · intro p lefts c rights st st' cm ha ih ih' S b hb
    obtain ⟨b1, h1, h2⟩ := ih S _ (agree_flush hb c.id)
    obtain ⟨b', h3, h4⟩ := ih' S b1 h2
    refine ⟨b', ?_, h4⟩
    unfold collectKids
    simp only [Node.associable, Bool.and_eq_true, Bool.not_eq_true'] at ha
    simp only [ha.1, ha.2, Bool.false_eq_true, if_false, if_true, bind, Except.bind, h1, h3]
  · intro p lefts c rights st st' ha he ih S b hb
    obtain ⟨b', h3, h4⟩ := ih S b hb
    refine ⟨b', ?_, h4⟩
    unfold collectKids
    simp only [Node.associable, he, Bool.not_false, Bool.true_and] at ha
    simp only [ha, he, Bool.false_eq_true, if_false, h3]

theorem get_ne {cm : CMap} {f : Bucket → Bucket} {i j : Nat} (h : j ≠ i) : (cm.update f j).get? i = cm.get? i := by
  rw [get?_update, if_neg (fun e => h e.symm)]

theorem id_mem (n : Node) : n.id ∈ n.ids := by cases n; simp [Node.ids, Node.id]

theorem ids_eq (n : Node) : n.ids = n.id :: idsOf n.children := by cases n; rfl

theorem mem_idsOf {i : Nat} {c : Node} : ∀ {ns : List Node}, c ∈ ns → i ∈ c.ids → i ∈ idsOf ns
  | _ :: ns, .head _, hi => by rw [idsOf]; exact List.mem_append_left _ hi
  | _ :: ns, .tail _ h, hi => by rw [idsOf]; exact List.mem_append_right _ (mem_idsOf h hi)

/-- Collecting changes the buckets of the nodes of the tree only, and puts nothing but dangling comments into the bucket
of the tree itself. -/
theorem collect_both (n : Node) (cm cm' : CMap) (h : collect n cm = .ok cm') : (∀ i, i ∉ n.ids → cm'.get? i = cm.get? i) ∧
    (n.ids.Nodup → isVisited n.named n.extra n.kind = true → cm.get? n.id = none → ∃ b, cm'.get? n.id = some b ∧ b.post = []) := by
  refine collect_induct
    (M := fun n cm cm' => (∀ i, i ∉ n.ids → cm'.get? i = cm.get? i) ∧
      (n.ids.Nodup → isVisited n.named n.extra n.kind = true → cm.get? n.id = none → ∃ b, cm'.get? n.id = some b ∧ b.post = []))
    (K := fun _ lefts rest st st' => ∀ i, (∀ l, st.last = some l → l.1 ≠ i) → i ∉ idsOf rest →
      st'.cm.get? i = st.cm.get? i ∧ ∀ l, st'.last = some l → l.1 ≠ i)
    ?_ ?_ ?_ ?_ ?_ ?_ ?_ n cm cm' h
  · intro n cm hv
    exact ⟨fun i hi => rfl, fun _ h => by rw [hv] at h; cases h⟩
  · intro n cm hv hc
    exact ⟨fun i hi => get_ne (fun e => hi (e ▸ id_mem n)), fun _ _ hg => ⟨Bucket.empty, by rw [get?_update, if_pos rfl, hg]; rfl, rfl⟩⟩
  · intro n cm st hv hc ih
    refine ⟨?_, ?_⟩
    rotate_left
    · intro hn _ hg
      rw [ids_eq, List.nodup_cons] at hn
      obtain ⟨h1, h2⟩ := ih n.id (by intro l hl; cases hl) hn.1
      have h3 : (cm.update (fun b => b) n.id).get? n.id = some Bucket.empty := by rw [get?_update, if_pos rfl, hg]; rfl
      have h1 : st.cm.get? n.id = some Bucket.empty := h1.trans h3
      unfold finishPending
      split
      · rename_i l r hl
        exact ⟨_, by rw [get_ne (h2 _ hl), h1], rfl⟩
      · exact ⟨_, by rw [get?_update, if_pos rfl, h1], rfl⟩
    intro i hi
    rw [ids_eq, List.mem_cons, not_or] at hi
    obtain ⟨h1, h2⟩ := ih i (by intro l hl; cases hl) hi.2
    have h3 : (cm.update (fun b => b) n.id).get? i = cm.get? i := get_ne (fun e => hi.1 e.symm)
    unfold finishPending
    split
    · rename_i l r hl
      rw [get_ne (h2 _ hl), h1, h3]
    · rw [get_ne (fun e => hi.1 e.symm), h1, h3]
  · intro p lefts st i hl hi; exact ⟨rfl, hl⟩
  · intro p lefts c rights st st' k he hk ih i hl hi
    have hi' : i ∉ idsOf rights := fun hh => hi (by rw [idsOf]; exact List.mem_append_right _ hh)
    have ha : (attachComment k c rights st).cm.get? i = st.cm.get? i ∧ ∀ l, (attachComment k c rights st).last = some l → l.1 ≠ i := by
      unfold attachComment
      cases hs : st.last with
      | none => exact ⟨rfl, by intro l h; cases h⟩
      | some l =>
        obtain ⟨li, lr⟩ := l
        have h1 : li ≠ i := hl _ hs
        have h2 : ∀ l, some (li, lr) = some l → l.1 ≠ i := by intro l h; cases h; exact h1
        cases hr : rights.find? (fun s => !s.extra) with
        | none => exact ⟨get_ne h1, by simpa [hs] using h1⟩
        | some s =>
          have h3 : s.id ≠ i := fun e => hi' (mem_idsOf (List.mem_of_find?_eq_some hr) (e ▸ id_mem s))
          simp only
          split
          · exact ⟨get_ne h3, by simpa [hs] using h1⟩
          · split
            · exact ⟨get_ne h1, by simpa [hs] using h1⟩
            · exact ⟨rfl, by simpa [hs] using h1⟩
    obtain ⟨h1, h2⟩ := ih i ha.2 hi'
    exact ⟨h1.trans ha.1, h2⟩
  · intro p lefts c rights st st' cm ha ih ih' i hl hi
    rw [idsOf, List.mem_append, not_or] at hi
    have hc : c.id ≠ i := fun e => hi.1 (e ▸ id_mem c)
    have h1 := ih.1 i hi.1
    obtain ⟨h2, h3⟩ := ih' i (by intro l h; cases h; exact hc) hi.2
    refine ⟨h2.trans (h1.trans ?_), h3⟩
    unfold flushPending
    split
    · rfl
    · exact get_ne hc
  · intro p lefts c rights st st' ha he ih i hl hi
    exact ih i hl (fun hh => hi (by rw [idsOf]; exact List.mem_append_right _ hh))

/-- Collecting changes the buckets of the nodes of the tree only. -/
theorem collect_frame (n : Node) (cm cm' : CMap) (h : collect n cm = .ok cm') : ∀ i, i ∉ n.ids → cm'.get? i = cm.get? i :=
  (collect_both n cm cm' h).1

end Solo
end Afmt
