import Verif.Notes.Frame
import Verif.Notes.Guard
import Verif.CommentText

/-!
# The comments of settled trees

The comments `collect_comments` finds in a settled tree have roles in the sense of `Verif.Notes.Syms`.
-/

namespace Afmt.Notes
open Afmt.Gram
open Afmt.Lines (All)

/-! ### Comments of buckets -/

/-- What is known about the comments of a node. -/
structure BktOk (b : Bucket) : Prop where
  pre : ∀ c ∈ b.pre, c.meta'.hasLeadingContent = false ∧ c.meta'.hasTrailingContent = false ∧ Sound c
  post : ∀ c ∈ b.post, c.meta'.hasTrailingContent = false ∧ (c.meta'.hasLeadingContent = true → c.type = .line) ∧ Sound c
  tail : ∀ c ∈ b.post.tail, c.meta'.hasLeadingContent = false
  dangling : b.dangling = []

theorem bktOk_empty : BktOk .empty := ⟨(fun _ h => nomatch h), (fun _ h => nomatch h), (fun _ h => nomatch h), rfl⟩

theorem ink_of_mem {s : Str} {c : Char} (h : c ∈ s) (hc : isBlank c = false) : ink s ≠ [] := by
  have : c ∈ ink s := by
    unfold ink
    exact List.mem_filter.2 ⟨h, by rw [hc]; rfl⟩
  exact List.ne_nil_of_mem this

theorem keep_prefix (s p : Str) (hp : ∃ q c, p = q ++ [c] ∧ isWs c = false) (h : p.isPrefixOf s = true) : p.isPrefixOf (trimEnd s) = true := by
  rw [List.isPrefixOf_iff_prefix] at h ⊢
  obtain ⟨r, rfl⟩ := h
  obtain ⟨q, c, rfl, hc⟩ := hp
  by_cases hr : trimEnd r = []
  · rw [trimEnd_append_ws (trimEnd_eq_nil hr)]
    have : trimEnd (q ++ [c]) = q ++ [c] := by
      unfold trimEnd
      rw [List.reverse_append, List.reverse_singleton, List.singleton_append, List.dropWhile_cons, if_neg (by rw [hc]; exact Bool.false_ne_true)]
      simp
    rw [this]
    exact List.prefix_refl _
  · rw [trimEnd_prefix _ hr]
    exact List.prefix_append _ _

theorem trimEnd_twice (s : Str) : trimEnd (trimEnd s) = trimEnd s := by
  obtain ⟨w, h1, h2, h3⟩ := trimEnd_split s
  exact trimEnd_of_last h3

theorem sound_note {p x : Option Node} {c : Node} (h : Note c) : Sound (noteOf p c x) := by
  have hn := h
  unfold Note isNote at h
  simp only [Bool.and_eq_true, Bool.or_eq_true, decide_eq_true_eq, beq_iff_eq, Bool.not_eq_true'] at h
  rcases h.2 with ⟨⟨⟨h1, h2⟩, h3⟩, h4⟩ | ⟨⟨⟨⟨h1, h2⟩, h3⟩, h4⟩, h5⟩
  · have hl : linesOf (noteOf p c x) = [trimEnd c.text] := by
      unfold linesOf noteOf
      rw [h1]; rfl
    have hp := keep_prefix c.text "//".toList ⟨['/'], '/', rfl, by decide⟩ h2
    have hi : ink (trimEnd c.text) ≠ [] := by
      rw [List.isPrefixOf_iff_prefix] at hp
      obtain ⟨r, hr⟩ := hp
      exact ink_of_mem (c := '/') (by rw [← hr]; simp) (by decide)
    refine ⟨⟨_, _, hl, hi⟩, ⟨_, by rw [hl]; rfl, hi⟩, ?_⟩
    rw [hl]
    intro l hlm
    rw [List.mem_singleton] at hlm
    subst hlm
    intro hc
    have : '\n' ∈ c.text := (trimEnd_sublist _).subset hc
    rw [List.contains_eq_mem, decide_eq_false_iff_not] at h3
    exact h3 this
  · have hl : linesOf (noteOf p c x) = blockLines (trimEnd c.text) := by
      unfold linesOf noteOf
      rw [h1]; rfl
    have hp := keep_prefix c.text "/*".toList ⟨['/'], '*', rfl, by decide⟩ h2
    refine ⟨?_, ?_, by rw [hl]; exact nl_blockLines _⟩
    · rw [hl]
      by_cases hj : "/**".toList.isPrefixOf (trimEnd c.text) = true
      · rw [List.isPrefixOf_iff_prefix] at hj
        obtain ⟨r, hr⟩ := hj
        obtain ⟨_, _, ls, _, _, h3, _⟩ := blockLines_javadoc r
        rw [← hr, h3]
        exact ⟨_, _, rfl, by decide⟩
      · unfold blockLines
        rw [if_neg hj]
        rw [List.isPrefixOf_iff_prefix] at hp
        obtain ⟨r, hr⟩ := hp
        rw [← hr]
        cases hs : splitNl r with
        | nil => exact absurd hs (splitNl_ne_nil r)
        | cons y ys =>
          rw [splitNl_prefix (by decide) hs]
          refine ⟨_, _, rfl, ?_⟩
          refine ink_of_mem (c := '/') ?_ (by decide)
          unfold trim
          rw [trimStart_of_head (by simp; decide)]
          have := keep_prefix ("/*".toList ++ y) "/*".toList ⟨['/'], '*', rfl, by decide⟩ (by rw [List.isPrefixOf_iff_prefix]; exact List.prefix_append _ _)
          rw [List.isPrefixOf_iff_prefix] at this
          obtain ⟨z, hz⟩ := this
          rw [← hz]
          simp
    · rw [hl]
      have hne : trimEnd c.text ≠ [] := by
        rw [List.isPrefixOf_iff_prefix] at hp
        obtain ⟨r, hr⟩ := hp
        rw [← hr]
        simp
      obtain ⟨init, l, e, e1, e2⟩ := blockLines_last hne (trimEnd_twice _)
      refine ⟨l, by rw [e]; simp, ?_⟩
      obtain ⟨a, ha⟩ : ∃ a, l.getLast? = some a := by
        cases hl : l.getLast? with
        | none => rw [List.getLast?_eq_none_iff] at hl; exact absurd hl e1
        | some a => exact ⟨a, rfl⟩
      have hw := e2 a ha
      refine ink_of_mem (List.mem_of_getLast? ha) ?_
      cases hb : isBlank a with
      | false => rfl
      | true => 
        unfold isBlank at hb
        simp only [Bool.or_eq_true, beq_iff_eq] at hb
        rcases hb with rfl | rfl <;> exact absurd hw (by decide)

theorem apart_pre : ∀ {a b : List Node}, apartRows (a ++ b) = true → apartRows a = true
  | [], _, _ => rfl
  | [_], _, _ => rfl
  | c :: x :: r, b, h => by
    rw [List.cons_append, List.cons_append, apartRows, Bool.and_eq_true] at h
    rw [apartRows, Bool.and_eq_true]
    exact ⟨h.1, apart_pre h.2⟩

/-- The metadata of the comments between two nodes. -/
theorem notes_props : ∀ (cs : List Node) (p x : Option Node), (∀ c ∈ cs, Note c) → apartRows (p.toList ++ (cs ++ x.toList)) = true →
    (∀ k ∈ notesOf p cs x, k.meta'.hasTrailingContent = false ∧ (k.meta'.hasLeadingContent = true → k.type = .line) ∧ Sound k) ∧
    (∀ k ∈ (notesOf p cs x).tail, k.meta'.hasLeadingContent = false) ∧
    ∀ k c r, notesOf p cs x = k :: r → cs.head? = some c → k.meta'.hasLeadingContent = true → ∃ q, p = some q ∧ atEnd q c = true
  | [], p, x, _, _ => ⟨(fun _ h => nomatch h), (fun _ h => nomatch h), (fun _ _ _ h => nomatch h)⟩
  | c :: cs, p, x, h, ha => by
    have hc := h c List.mem_cons_self
    have ha' : apartRows ((some c).toList ++ (cs ++ x.toList)) = true := by
      cases p with
      | none => exact ha
      | some q => exact apart_tail ha
    obtain ⟨i1, i2, i3⟩ := notes_props cs (some c) x (fun d hd => h d (List.mem_cons_of_mem _ hd)) ha'
    have lead : (noteOf p c (cs.head?.or x)).meta'.hasLeadingContent = true → ∃ q, p = some q ∧ atEnd q c = true := by
      intro hl
      cases p with
      | none => cases hl
      | some q =>
        replace hl : (c.startRow == q.endRow) = true := hl
        rw [beq_iff_eq] at hl
        rcases apart_head (r := cs ++ x.toList) ha (.inr hc.extra) with h | h
        · exact ⟨q, rfl, h⟩
        · omega
    have first : (noteOf p c (cs.head?.or x)).meta'.hasTrailingContent = false ∧
        ((noteOf p c (cs.head?.or x)).meta'.hasLeadingContent = true → (noteOf p c (cs.head?.or x)).type = .line) ∧
        Sound (noteOf p c (cs.head?.or x)) := by
      refine ⟨?_, fun hl => ?_, sound_note hc⟩
      · unfold noteOf CommentMetadata.of
        dsimp only
        split
        · rfl
        · cases hx : cs.head?.or x with
          | none => rfl
          | some y =>
            have hy : ∃ r, cs ++ x.toList = y :: r := by
              cases cs with
              | nil => cases x <;> cases hx; exact ⟨_, rfl⟩
              | cons d r => cases hx; exact ⟨_, rfl⟩
            obtain ⟨r, hr⟩ := hy
            rw [hr] at ha'
            rcases apart_head (r := r) ha' (.inl hc.extra) with h | h
            · unfold atEnd at h; rw [hc.extra] at h; simp at h
            · simp; omega
      · obtain ⟨q, -, h⟩ := lead hl
        unfold atEnd at h
        simp only [Bool.and_eq_true, beq_iff_eq] at h
        unfold noteOf
        rw [h.1.2]
        rfl
    have rest : ∀ k ∈ notesOf (some c) cs x, k.meta'.hasLeadingContent = false := by
      intro k hk
      cases hl : k.meta'.hasLeadingContent with
      | false => rfl
      | true =>
        cases cs with
        | nil => cases hk
        | cons d r =>
          rw [notesOf] at hk i2 i3
          rcases List.mem_cons.1 hk with e | hk
          · obtain ⟨q, hq, h⟩ := i3 _ d _ rfl rfl (e ▸ hl)
            cases hq
            unfold atEnd at h
            rw [hc.extra] at h
            simp at h
          · rw [i2 k hk] at hl; cases hl
    rw [notesOf]
    refine ⟨fun k hk => ?_, rest, fun k d r hk hd hl => ?_⟩
    · rcases List.mem_cons.1 hk with rfl | hk
      · exact first
      · exact i1 k hk
    · cases hk
      cases hd
      exact lead hl

theorem apart_last : ∀ {cs R : List Node} {q : Node}, apartRows (q :: (cs ++ R)) = true → apartRows ((lastN (some q) cs).toList ++ R) = true
  | [], _, _, h => h
  | c :: cs, R, q, h => apart_last (cs := cs) (q := c) (apart_tail (c := q) h)

theorem owned_ok {cm : CMap} : ∀ {bs : List Blk} {p : Option Node}, Blks p bs → apartRows (p.toList ++ flat bs) = true → Owned cm p bs →
    ∀ b ∈ bs, BktOk (bucketOf cm b.m.id)
  | [], _, _, _, _, b, hb => by cases hb
  | b :: bs, p, hb, ha, ho, x, hx => by
    cases hb with
    | cons h1 h2 h3 h4 h5 h6 =>
    rw [flat_cons] at ha
    have ha2 : apartRows (b.m :: (b.post ++ flat bs)) = true := by
      have := ha
      rw [← List.append_assoc] at this
      exact apart_drop this
    have ha3 : apartRows ((lastN (some b.m) b.post).toList ++ flat bs) = true := apart_last ha2
    rcases List.mem_cons.1 hx with rfl | hx
    · rw [ho.1]
      obtain ⟨p1, p2, p3⟩ := notes_props x.pre p (some x.m) h1 (by
        have : apartRows ((p.toList ++ (x.pre ++ [x.m])) ++ (x.post ++ flat bs)) = true := by
          simpa [List.append_assoc] using ha
        exact apart_pre this)
      obtain ⟨q1, q2, q3⟩ := notes_props x.post (some x.m) (flat bs).head? h3 (by
        cases hf : flat bs with
        | nil => rw [hf] at ha2; simpa using ha2
        | cons y r =>
          have : apartRows ((x.m :: (x.post ++ [y])) ++ r) = true := by rw [hf] at ha2; simpa [List.append_assoc] using ha2
          exact apart_pre this)
      refine ⟨fun c hc => ?_, q1, q2, rfl⟩
      refine ⟨?_, (p1 c hc).1, (p1 c hc).2.2⟩
      cases hl : c.meta'.hasLeadingContent with
      | false => rfl
      | true =>
        cases hpre : x.pre with
        | nil => rw [hpre] at hc; cases hc
        | cons d r =>
          rw [hpre] at p2 p3 hc
          replace hc : c ∈ notesOf p (d :: r) (some x.m) := hc
          rw [notesOf] at p2 p3 hc
          rcases List.mem_cons.1 hc with e | hc
          · obtain ⟨q, hq, h⟩ := p3 _ d _ rfl rfl (e ▸ hl)
            rw [h5 q d r hq hpre] at h
            cases h
          · rw [p2 c hc] at hl; cases hl
    · exact owned_ok h6 ha3 ho.2 x hx

/-! ### All buckets -/

theorem mem_owned {p : Option Node} {bs : List Blk} (h : Blks p bs) {c : Node} (hc : c ∈ flat bs) (hm : Mem c) : ∃ b ∈ bs, c = b.m := by
  rcases flat_cases h hc with h | h
  · exact h
  · have := h.extra
    rw [hm.2.1] at this
    cases this

/-- A child of a body that is a member. -/
theorem mem_body {xs ys : List Node} {bs : List Blk} (hx : ∀ t ∈ xs, Tok t) (hy : ∀ t ∈ ys, Tok t) {c : Node} (hc : c ∈ xs ++ flat bs ++ ys)
    (hm : Mem c) : c ∈ flat bs := by
  rw [List.append_assoc, List.mem_append, List.mem_append] at hc
  rcases hc with h | h | h
  · have := (hx c h).1; rw [hm.1] at this; cases this
  · exact h
  · have := (hy c h).1; rw [hm.1] at this; cases this

theorem kid_ok {cm : CMap} {n : Node} (h : KidsB cm n) {c : Node} (hc : c ∈ n.children) : BktOk (bucketOf cm c.id) := by
  cases hb : bodyKinds.contains n.kind with
  | false => rw [(h.calm hb c hc).2]; exact bktOk_empty
  | true =>
    obtain ⟨xs, bs, ys, e1, e2, e3, e4, e5, e6, e7⟩ := h.body hb
    by_cases hm : Mem c
    · obtain ⟨b, hb, rfl⟩ := mem_owned e4 (mem_body e2 e3 (e1 ▸ hc) hm) hm
      exact owned_ok e4 e5 e6 b hb
    · rw [e7 c hc hm]; exact bktOk_empty

theorem mem_idsOf : ∀ {ns : List Node} {i : Nat}, i ∈ idsOf ns → ∃ c ∈ ns, i ∈ c.ids
  | [], _, h => by rw [idsOf] at h; cases h
  | n :: ns, i, h => by
    rw [idsOf, List.mem_append] at h
    rcases h with h | h
    · exact ⟨n, List.mem_cons_self, h⟩
    · obtain ⟨c, hc, hi⟩ := mem_idsOf h
      exact ⟨c, List.mem_cons_of_mem _ hc, hi⟩

theorem kids_ok {cm : CMap} {n : Node} (h : All (KidsB cm) n) : ∀ i ∈ idsOf n.children, BktOk (bucketOf cm i) := by
  induction h with
  | mk h _ ih =>
    intro i hi
    obtain ⟨c, hc, hic⟩ := mem_idsOf hi
    rw [ids_eq, List.mem_cons] at hic
    rcases hic with rfl | hic
    · exact kid_ok h hc
    · exact ih c hc i hic

/-! ### Every comment once -/

mutual
theorem extras_sub : ∀ n : Node, (n.extras.map (·.node.id)).Sublist (idsOf n.children)
  | .mk id kind named extra err field sr er sb eb text children => by
    rw [Node.extras_eq]
    exact kids_sub children _ _
theorem kids_sub : ∀ (ns : List Node) (pid : Nat) (lefts : List Node), ((kidsExtras pid lefts ns).map (·.node.id)).Sublist (idsOf ns)
  | [], _, _ => by rw [kidsExtras, idsOf]; exact List.Sublist.refl _
  | c :: r, pid, lefts => by
    rw [kidsExtras, idsOf, ids_eq, List.map_append, List.map_append]
    refine List.Sublist.append ?_ (kids_sub r pid _)
    show List.Sublist _ ([c.id] ++ idsOf c.children)
    refine List.Sublist.append ?_ (extras_sub c)
    split
    · exact List.Sublist.refl _
    · exact List.nil_sublist _
end

theorem bucketOf_cons (k : Nat) (b : Bucket) (m : CMap) (i : Nat) : bucketOf ((k, b) :: m) i = if k = i then b else bucketOf m i := by
  unfold bucketOf CMap.get?
  rw [List.find?_cons]
  by_cases h : k = i
  · simp [h]
  · have : (k == i) = false := by simpa using h
    simp [this, h]

theorem bucket_sub : ∀ (cm : CMap) (i : Nat), ∀ c ∈ (bucketOf cm i).all, c ∈ cm.all
  | [], i, c, h => by simp [bucketOf, CMap.get?, Bucket.empty, Bucket.all] at h
  | (k, b) :: m, i, c, h => by
    rw [bucketOf_cons] at h
    rw [CMap.all, List.map_cons, List.flatten_cons, List.mem_append]
    split at h
    · exact .inl h
    · exact .inr (bucket_sub m i c h)

theorem bucket_nodup : ∀ (cm : CMap), cm.all.Nodup → ∀ i, (bucketOf cm i).all.Nodup
  | [], _, i => by simp [bucketOf, CMap.get?, Bucket.empty, Bucket.all]
  | (k, b) :: m, h, i => by
    rw [CMap.all, List.map_cons, List.flatten_cons, List.nodup_append] at h
    rw [bucketOf_cons]
    split
    · exact h.1
    · exact bucket_nodup m h.2.1 i

theorem bucket_once : ∀ (cm : CMap), cm.all.Nodup → ∀ i j c, c ∈ (bucketOf cm i).all → c ∈ (bucketOf cm j).all → i = j
  | [], _, i, j, c, h, _ => by simp [bucketOf, CMap.get?, Bucket.empty, Bucket.all] at h
  | (k, b) :: m, hn, i, j, c, hi, hj => by
    rw [CMap.all, List.map_cons, List.flatten_cons, List.nodup_append] at hn
    rw [bucketOf_cons] at hi hj
    split at hi <;> split at hj
    · rename_i h1 h2; exact h1.symm.trans h2
    · exact absurd rfl (hn.2.2 c hi c (bucket_sub m j c hj))
    · exact absurd rfl (hn.2.2 c hj c (bucket_sub m i c hi))
    · exact bucket_once m hn.2.1 i j c hi hj

/-! ### Roles -/

open Classical in
/-- The roles of the comments of a map. -/
noncomputable def roleOf (cm : CMap) (c : Comment) : Role where
  lead := if c.meta'.hasLeadingContent then .eol else if ∃ i, (bucketOf cm i).pre.head? = some c then .none else .sep c.meta'.hasEmptyLineAbove
  trail := if ∃ i, (bucketOf cm i).pre.getLast? = some c then some c.meta'.hasEmptyLineBelow else none

theorem roles_pre {ro : Comment → Role} : ∀ (cs : List Comment) (first : Bool), (∀ c ∈ cs, c.meta'.hasLeadingContent = false ∧ c.meta'.hasTrailingContent = false) →
    (∀ c, cs.head? = some c → (ro c).lead = if first then .none else .sep c.meta'.hasEmptyLineAbove) →
    (∀ c ∈ cs.tail, (ro c).lead = .sep c.meta'.hasEmptyLineAbove) →
    (∀ a c b, cs = a ++ c :: b → (ro c).trail = if b = [] then some c.meta'.hasEmptyLineBelow else none) → PreRoles ro first cs
  | [], _, _, _, _, _ => trivial
  | c :: cs, first, h1, h2, h3, h4 =>
    ⟨(h1 c List.mem_cons_self).1, (h1 c List.mem_cons_self).2, h2 c rfl, h4 [] c cs rfl,
      roles_pre cs false (fun d hd => h1 d (List.mem_cons_of_mem _ hd)) (fun d hd => h3 d (List.mem_of_head? hd))
        (fun d hd => h3 d (List.mem_of_mem_tail hd)) (fun a d b e => h4 (c :: a) d b (by rw [e]; rfl))⟩

theorem roles_post {ro : Comment → Role} : ∀ (cs : List Comment), (∀ c ∈ cs, c.meta'.hasTrailingContent = false ∧ (c.meta'.hasLeadingContent = true → c.type = .line) ∧
    (ro c).trail = none ∧ (ro c).lead = if c.meta'.hasLeadingContent then .eol else .sep c.meta'.hasEmptyLineAbove) → PostRoles ro cs
  | [], _ => trivial
  | c :: cs, h =>
    have hc := h c List.mem_cons_self
    ⟨hc.1, hc.2.2.1, hc.2.2.2, hc.2.1, roles_post cs (fun d hd => h d (List.mem_cons_of_mem _ hd))⟩

theorem roles_of {cm : CMap} (hn : cm.all.Nodup) (hb : ∀ i, BktOk (bucketOf cm i)) : Roles (roleOf cm) cm := by
  have dis : ∀ i j c, c ∈ (bucketOf cm i).pre → c ∈ (bucketOf cm j).post → False := by
    intro i j c hi hj
    have := bucket_once cm hn i j c (by simp [Bucket.all, hi]) (by simp [Bucket.all, hj])
    subst this
    have h := bucket_nodup cm hn i
    rw [Bucket.all, List.append_assoc, List.nodup_append] at h
    exact h.2.2 c hi c (List.mem_append_left _ hj) rfl
  have same : ∀ i j c, c ∈ (bucketOf cm i).pre → c ∈ (bucketOf cm j).pre → i = j := fun i j c hi hj =>
    bucket_once cm hn i j c (by simp [Bucket.all, hi]) (by simp [Bucket.all, hj])
  have nd : ∀ i, (bucketOf cm i).pre.Nodup := by
    intro i
    have h := bucket_nodup cm hn i
    rw [Bucket.all, List.append_assoc, List.nodup_append] at h
    exact h.1
  refine ⟨fun i => ?_, fun i => ?_, fun i => (hb i).dangling⟩
  · refine roles_pre _ true (fun c hc => ⟨((hb i).pre c hc).1, ((hb i).pre c hc).2.1⟩) (fun c hc => ?_) (fun c hc => ?_) (fun a c b e => ?_)
    · have hm := List.mem_of_head? hc
      unfold roleOf
      dsimp only
      rw [((hb i).pre c hm).1, if_neg Bool.false_ne_true, if_pos ⟨i, hc⟩, if_pos rfl]
    · have hm := List.mem_of_mem_tail hc
      unfold roleOf
      dsimp only
      rw [((hb i).pre c hm).1, if_neg Bool.false_ne_true, if_neg]
      rintro ⟨j, hj⟩
      obtain rfl := same i j c hm (List.mem_of_head? hj)
      have := nd i
      cases hp : (bucketOf cm i).pre with
      | nil => rw [hp] at hj; cases hj
      | cons d r =>
        rw [hp] at this hj hc
        cases hj
        rw [List.nodup_cons] at this
        exact this.1 hc
    · have hm : c ∈ (bucketOf cm i).pre := by rw [e]; simp
      unfold roleOf
      dsimp only
      by_cases hbn : b = []
      · rw [if_pos hbn, if_pos ⟨i, by rw [e, hbn]; simp⟩]
      · rw [if_neg hbn, if_neg]
        rintro ⟨j, hj⟩
        obtain rfl := same i j c hm (List.mem_of_getLast? hj)
        have h := nd i
        rw [e, List.nodup_append] at h
        rw [e, List.getLast?_append, List.getLast?_cons] at hj
        cases hl : b.getLast? with
        | none => rw [List.getLast?_eq_none_iff] at hl; exact hbn hl
        | some d =>
          rw [hl] at hj
          simp at hj
          subst hj
          rw [List.nodup_cons] at h
          exact h.2.1.1 (List.mem_of_getLast? hl)
  · refine roles_post _ (fun c hc => ⟨((hb i).post c hc).1, ((hb i).post c hc).2.1, ?_, ?_⟩)
    · unfold roleOf
      dsimp only
      rw [if_neg]
      rintro ⟨j, hj⟩
      exact dis j i c (List.mem_of_getLast? hj) hc
    · unfold roleOf
      dsimp only
      split
      · rfl
      · rw [if_neg]
        rintro ⟨j, hj⟩
        exact dis j i c (List.mem_of_head? hj) hc

theorem sounds_of {cm : CMap} (hb : ∀ i, BktOk (bucketOf cm i)) : Sounds (roleOf cm) cm := by
  have key : ∀ c : Comment, (roleOf cm c).lead = .eol → c.meta'.hasLeadingContent = true := by
    intro c h
    unfold roleOf at h
    dsimp only at h
    split at h
    · assumption
    · split at h <;> cases h
  intro i c hc
  rw [List.mem_append] at hc
  rcases hc with hc | hc
  · refine ⟨((hb i).pre c hc).2.2, fun h => ?_⟩
    have := key c h
    rw [((hb i).pre c hc).1] at this
    cases this
  · exact ⟨((hb i).post c hc).2.2, fun h => ((hb i).post c hc).2.1 (key c h)⟩

/-- The comments of a settled tree. -/
@[instance_reducible] noncomputable def srcOf (cm : CMap) (hn : cm.all.Nodup) (hb : ∀ i, BktOk (bucketOf cm i)) : Src where
  ro := roleOf cm
  cm := cm
  roles := roles_of hn hb
  sounds := sounds_of hb
  once := by
    intro i c hc h
    have : c.meta'.hasLeadingContent = true := by
      unfold roleOf at h
      dsimp only at h
      split at h
      · assumption
      · split at h <;> cases h
    rw [(hb i).tail c hc] at this
    cases this

/-! ### The comments of a tree -/

/-- What `collect_comments` finds in a settled tree. -/
structure Found (cm : CMap) (root : Node) : Prop where
  nodup : cm.all.Nodup
  ok : ∀ i, BktOk (bucketOf cm i)
  kids : All (KidsB cm) root
  root : bucketOf cm root.id = .empty

theorem found_of {root : Node} {cm : CMap} (hs : All Sett root) (hx : root.extra = false) (hv : isVisited root.named root.extra root.kind = true) (hcl : root.Closed)
    (hn : root.ids.Nodup) (h : collect root [] = .ok cm) : Found cm root := by
  have ha : root.associable = false → root.children = [] := fun ha => by
    rw [associable_iff_visited hx] at hv
    unfold Node.associable at ha
    rw [hx, hv] at ha
    cases ha
  obtain ⟨v1, v2⟩ := collect_visit hs ha hcl hn [] cm h (fun _ _ => rfl)
  have hnd : root.ids.Nodup := hn
  rw [ids_eq, List.nodup_cons] at hnd
  refine ⟨?_, fun i => ?_, v2, by rw [v1 _ hnd.1]; rfl⟩
  · have hp := collect_conserves root [] cm h hcl hv
    rw [hp.nodup_iff]
    refine nodup_of_map (fun c : Comment => c.id) ?_
    have he : ([] ++ root.extras.map Occ.comment).map (fun c : Comment => c.id) = root.extras.map (·.node.id) := by
      rw [List.nil_append, List.map_map]
      exact List.map_congr_left (fun o _ => by unfold Occ.comment; rfl)
    rw [show (CMap.all [] : List Comment) = [] from rfl, he]
    exact (extras_sub root).nodup hnd.2
  · by_cases hi : i ∈ idsOf root.children
    · exact kids_ok v2 i hi
    · rw [v1 i hi]; exact bktOk_empty

theorem home_of {root : Node} {cm : CMap} (h : Found cm root) : @Home (srcOf cm h.nodup h.ok) root := by
  have nodes : ∀ {l c : Loc}, c ∈ l.children → c.node ∈ l.node.children := Lines.All.at.mem_children_node
  refine @Home.mk (srcOf cm h.nodup h.ok) root ?_ ?_
  · intro n l hn hl hk
    exact ((h.kids.at hn).here.calm hk l.node (nodes hl)).2
  · intro l hl hk
    cases hl with
    | root => exact h.root
    | child hp hc =>
      rename_i p
      have hkb := (h.kids.at hp).here
      cases hb : bodyKinds.contains p.node.kind with
      | false => exact (hkb.calm hb l.node (nodes hc)).2
      | true =>
        obtain ⟨xs, bs, ys, e1, e2, e3, e4, e5, e6, e7⟩ := hkb.body hb
        refine e7 l.node (nodes hc) (fun hm => ?_)
        have := hm.2.2
        rw [show memberKinds.contains l.node.kind = false from hk] at this
        cases this

end Afmt.Notes
