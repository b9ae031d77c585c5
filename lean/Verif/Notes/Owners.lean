import Verif.Notes.Blocks

/-!
# The comment map of a tree with comments between members
-/

namespace Afmt.Notes
open Afmt.Gram
open Afmt.Lines (All)

/-- The buckets of the members of blocks. -/
def Owned (cm : CMap) : Option Node → List Blk → Prop
  | _, [] => True
  | p, b :: bs =>
    bucketOf cm b.m.id = ⟨notesOf p b.pre (some b.m), notesOf (some b.m) b.post (flat bs).head?, []⟩ ∧
    Owned cm (lastN (some b.m) b.post) bs

/-- The rows of comments before and after members; `row` is the last row of the member before the blocks. -/
def RowsB : Option Nat → List Blk → Prop
  | _, [] => True
  | row, b :: bs => (∀ r, row = some r → ∀ c ∈ b.pre, c.endRow ≠ r) ∧
    (∀ c r, b.post = c :: r → ∀ d ∈ r, d.endRow ≠ b.m.endRow) ∧ RowsB (some b.m.endRow) bs

/-- The children of a node: members with their comments if it is a body, else no comments. -/
structure Sett (n : Node) : Prop where
  calm : bodyKinds.contains n.kind = false → ∀ c ∈ n.children, c.extra = false
  body : bodyKinds.contains n.kind = true → ∃ xs bs ys, n.children = xs ++ flat bs ++ ys ∧ (∀ t ∈ xs, Tok t) ∧ (∀ t ∈ ys, Tok t) ∧
    Blks none bs ∧ apartRows (flat bs) = true

/-- The buckets of the children of a node. -/
structure KidsB (cm : CMap) (n : Node) : Prop where
  calm : bodyKinds.contains n.kind = false → ∀ c ∈ n.children, c.extra = false ∧ bucketOf cm c.id = .empty
  body : bodyKinds.contains n.kind = true → ∃ xs bs ys, n.children = xs ++ flat bs ++ ys ∧ (∀ t ∈ xs, Tok t) ∧ (∀ t ∈ ys, Tok t) ∧
    Blks none bs ∧ apartRows (flat bs) = true ∧ Owned cm none bs ∧ ∀ c ∈ n.children, ¬ Mem c → bucketOf cm c.id = .empty

/-! ### Rows -/

/-- Comments one after the other are in increasing rows. -/
theorem rows_chain {q : Node} : ∀ {cs R : List Node}, (∀ c ∈ cs, Note c) → apartRows (q :: (cs ++ R)) = true →
    (∀ c r, cs = c :: r → atEnd q c = false) → ∀ c ∈ cs, q.endRow < c.startRow
  | [], _, _, _, _, c, hc => by cases hc
  | d :: r, R, h, ha, h0, c, hc => by
    have hd := h d List.mem_cons_self
    have h1 : q.endRow < d.startRow := by
      rcases apart_head ha (.inr hd.extra) with h1 | h1
      · rw [h0 d r rfl] at h1; cases h1
      · exact h1
    rcases List.mem_cons.1 hc with rfl | hc
    · exact h1
    · have := rows_chain (q := d) (fun c hc => h c (List.mem_cons_of_mem _ hc)) (apart_tail ha)
        (fun e r' _ => by unfold atEnd; simp [hd.extra]) c hc
      have := hd.rows
      omega

theorem apart_drop : ∀ {a b : List Node}, apartRows (a ++ b) = true → apartRows b = true
  | [], _, h => h
  | _ :: _, _, h => apart_drop (apart_tail h)

theorem rowsB_of : ∀ {bs : List Blk} {p : Option Node} {row : Option Nat}, Blks p bs → apartRows (p.toList ++ flat bs) = true →
    (∀ r, row = some r → ∃ q, p = some q ∧ q.endRow = r) → RowsB row bs
  | [], _, _, _, _, _ => trivial
  | b :: bs, p, row, hb, ha, hr => by
    cases hb with
    | cons h1 h2 h3 h4 h5 h6 =>
      refine ⟨?_, ?_, ?_⟩
      · intro r hrow c hc
        obtain ⟨q, rfl, rfl⟩ := hr r hrow
        rw [flat_cons] at ha
        have := rows_chain h1 ha (fun c r hcr => h5 q c r rfl hcr) c hc
        have := (h1 c hc).rows
        omega
      · intro c r hp d hd
        have hap : apartRows (b.m :: (b.post ++ flat bs)) = true := by
          rw [flat_cons, ← List.append_assoc] at ha
          exact apart_drop ha
        rw [hp] at hap h3
        have hc := h3 c List.mem_cons_self
        have h7 : b.m.endRow ≤ c.endRow := by
          rcases apart_head hap (.inr hc.extra) with h | h
          · unfold atEnd at h
            simp only [Bool.and_eq_true, beq_iff_eq] at h
            have := hc.rows
            omega
          · have := hc.rows
            omega
        have := rows_chain (q := c) (fun e he => h3 e (List.mem_cons_of_mem _ he)) (apart_tail hap)
          (fun e r' _ => by unfold atEnd; simp [hc.extra]) d hd
        have := (h3 d (List.mem_cons_of_mem _ hd)).rows
        omega
      · cases bs with
        | nil => trivial
        | cons b' bs' =>
          have hap : apartRows (b.m :: (b.post ++ flat (b' :: bs'))) = true := by
            rw [flat_cons, ← List.append_assoc] at ha
            exact apart_drop ha
          cases hp : b.post with
          | nil =>
            rw [hp] at h6 hap
            exact rowsB_of h6 hap (fun r hr => ⟨b.m, rfl, Option.some.inj hr⟩)
          | cons e r =>
            rw [hp] at h6 hap h4 h3
            simp only [PostOk, List.isEmpty_cons, Bool.false_eq_true, if_false] at h4
            obtain ⟨h4, rfl⟩ := h4
            refine rowsB_of h6 (apart_tail hap) (fun r hr => ⟨e, rfl, ?_⟩)
            have := (h3 e List.mem_cons_self)
            unfold atEnd at h4
            simp only [Bool.and_eq_true, beq_iff_eq] at h4
            rw [← this.oneRow h4.1.2, h4.2]
            exact Option.some.inj hr

/-! ### Buckets that do not change -/

/-- The ids of a node are those of its children and its own. -/
theorem ids_eq (n : Node) : n.ids = n.id :: idsOf n.children := by cases n; rfl

theorem idsOf_append (a b : List Node) : idsOf (a ++ b) = idsOf a ++ idsOf b := by
  induction a with
  | nil => rfl
  | cons c a ih => rw [List.cons_append, idsOf, idsOf, ih, List.append_assoc]

theorem idsOf_mem {ns : List Node} {c : Node} (h : c ∈ ns) : ∀ i ∈ c.ids, i ∈ idsOf ns := by
  induction ns with
  | nil => cases h
  | cons n ns ih =>
    intro i hi
    rw [idsOf, List.mem_append]
    rcases List.mem_cons.1 h with rfl | h
    · exact .inl hi
    · exact .inr (ih h i hi)

theorem id_mem {ns : List Node} {c : Node} (h : c ∈ ns) : c.id ∈ idsOf ns := idsOf_mem h _ (by rw [ids_eq]; exact List.mem_cons_self)

theorem Owned.same {cm cm' : CMap} : ∀ {bs : List Blk} {p : Option Node}, Owned cm p bs →
    (∀ b ∈ bs, bucketOf cm' b.m.id = bucketOf cm b.m.id) → Owned cm' p bs
  | [], _, _, _ => trivial
  | b :: bs, p, h, he => ⟨by rw [he b List.mem_cons_self]; exact h.1, Owned.same h.2 (fun c hc => he c (List.mem_cons_of_mem _ hc))⟩

theorem mem_flat {bs : List Blk} {b : Blk} (h : b ∈ bs) : b.m ∈ flat bs := by
  unfold flat
  rw [List.mem_flatMap]
  exact ⟨b, h, by simp [Blk.nodes]⟩

theorem KidsB.same {cm cm' : CMap} {n : Node} (h : KidsB cm n) (he : ∀ c ∈ n.children, bucketOf cm' c.id = bucketOf cm c.id) :
    KidsB cm' n := by
  refine ⟨fun hb c hc => ?_, fun hb => ?_⟩
  · rw [he c hc]; exact h.calm hb c hc
  · obtain ⟨xs, bs, ys, h1, h2, h3, h4, h5, h6, h7⟩ := h.body hb
    refine ⟨xs, bs, ys, h1, h2, h3, h4, h5, h6.same (fun b hb => he _ ?_), fun c hc hm => by rw [he c hc]; exact h7 c hc hm⟩
    rw [h1]
    exact List.mem_append_left _ (List.mem_append_right _ (mem_flat hb))

theorem kidsB_same {cm cm' : CMap} {n : Node} (h : All (KidsB cm) n) (he : ∀ i ∈ idsOf n.children, bucketOf cm' i = bucketOf cm i) :
    All (KidsB cm') n := by
  induction h with
  | mk h hk ih =>
    refine .mk (h.same (fun c hc => he _ (id_mem hc))) (fun c hc => ih c hc (fun i hi => he i ?_))
    exact idsOf_mem hc i (by rw [ids_eq]; exact List.mem_cons_of_mem _ hi)

/-- What visiting a node does to the buckets. -/
def Visit (n : Node) : Prop := ∀ cm0 cm1, collect n cm0 = .ok cm1 → (∀ i ∈ idsOf n.children, bucketOf cm0 i = .empty) →
  (∀ i, i ∉ idsOf n.children → bucketOf cm1 i = bucketOf cm0 i) ∧ All (KidsB cm1) n

theorem leaf_kidsB {cm : CMap} {n : Node} (h : n.children = []) : All (KidsB cm) n := by
  refine .mk ⟨fun _ c hc => ?_, fun _ => ⟨[], [], [], by rw [h]; rfl, by simp, by simp, .nil, rfl, trivial, fun c hc => ?_⟩⟩ (fun c hc => ?_)
  all_goals (rw [h] at hc; cases hc)

/-! ### Nodes without comments below them -/

theorem run_plain : ∀ (cs lefts : List Node) (st st' : CollectSt), (∀ c ∈ cs, c.extra = false) → (∀ c ∈ cs, c.associable = false → c.children = []) →
    (∀ c ∈ cs, Visit c) → (idsOf cs).Nodup → (∀ i ∈ idsOf cs, bucketOf st.cm i = .empty) → st.pending = [] →
    collectKids lefts cs st = .ok st' → st'.pending = [] ∧ (∀ i, i ∉ idsOf cs → bucketOf st'.cm i = bucketOf st.cm i) ∧
      ∀ c ∈ cs, bucketOf st'.cm c.id = .empty ∧ All (KidsB st'.cm) c
  | [], lefts, st, st', _, _, _, _, _, hp, h => by
    rw [collectKids] at h; cases h
    exact ⟨hp, fun _ _ => rfl, fun c hc => nomatch hc⟩
  | c :: cs, lefts, st, st', he, hl, hv, hn, hf, hp, h => by
    rw [idsOf, List.nodup_append] at hn
    obtain ⟨hn1, hn2, hn3⟩ := hn
    rw [ids_eq, List.nodup_cons] at hn1
    have hec := he c List.mem_cons_self
    rw [collectKids, if_neg (by rw [hec]; exact Bool.false_ne_true)] at h
    have hfresh : ∀ i ∈ idsOf c.children, bucketOf st.cm i = .empty := fun i hi =>
      hf i (by rw [idsOf, ids_eq]; exact List.mem_append_left _ (List.mem_cons_of_mem _ hi))
    have hid : bucketOf st.cm c.id = .empty := hf _ (by rw [idsOf, ids_eq]; exact List.mem_append_left _ List.mem_cons_self)
    have dis : ∀ i ∈ c.ids, i ∉ idsOf cs := fun i hi hj => hn3 i hi i hj rfl
    split at h
    · have hfl : flushPending c.id st = st.cm := by unfold flushPending; rw [hp]
      rw [hfl] at h
      cases hcm : collect c st.cm with
      | error e => rw [hcm] at h; cases h
      | ok cm =>
        rw [hcm] at h
        obtain ⟨v1, v2⟩ := hv c List.mem_cons_self st.cm cm hcm hfresh
        obtain ⟨r1, r2, r3⟩ := run_plain cs (c :: lefts) ⟨cm, [], some (c.id, c.endRow)⟩ st' (fun d hd => he d (List.mem_cons_of_mem _ hd))
          (fun d hd => hl d (List.mem_cons_of_mem _ hd)) (fun d hd => hv d (List.mem_cons_of_mem _ hd)) hn2
          (fun i hi => by
            have hni : i ∉ c.ids := fun hc => dis i hc hi
            rw [show bucketOf cm i = _ from v1 i (fun hc => hni (by rw [ids_eq]; exact List.mem_cons_of_mem _ hc))]
            exact hf i (by rw [idsOf]; exact List.mem_append_right _ hi)) rfl h
        have hsame : ∀ i ∈ c.ids, bucketOf st'.cm i = bucketOf cm i := fun i hi => r2 i (dis i hi)
        refine ⟨r1, fun i hi => ?_, fun d hd => ?_⟩
        · rw [idsOf, List.mem_append, ids_eq, List.mem_cons] at hi
          rw [r2 i (fun h => hi (.inr h))]
          exact v1 i (fun h => hi (.inl (.inr h)))
        · rcases List.mem_cons.1 hd with rfl | hd
          · refine ⟨?_, kidsB_same v2 (fun i hi => hsame i (by rw [ids_eq]; exact List.mem_cons_of_mem _ hi))⟩
            rw [hsame _ (by rw [ids_eq]; exact List.mem_cons_self), v1 _ hn1.1, hid]
          · exact r3 d hd
    · rename_i hna
      obtain ⟨r1, r2, r3⟩ := run_plain cs (c :: lefts) st st' (fun d hd => he d (List.mem_cons_of_mem _ hd))
        (fun d hd => hl d (List.mem_cons_of_mem _ hd)) (fun d hd => hv d (List.mem_cons_of_mem _ hd)) hn2
        (fun i hi => hf i (by rw [idsOf]; exact List.mem_append_right _ hi)) hp h
      refine ⟨r1, fun i hi => ?_, fun d hd => ?_⟩
      · rw [idsOf, List.mem_append] at hi
        exact r2 i (fun h => hi (.inr h))
      · rcases List.mem_cons.1 hd with rfl | hd
        · refine ⟨?_, leaf_kidsB (hl d List.mem_cons_self ?_)⟩
          · rw [r2 _ (dis _ (by rw [ids_eq]; exact List.mem_cons_self)), hid]
          · unfold Node.associable
            rw [hec]
            simpa using hna
        · exact r3 d hd

/-! ### Bodies -/

theorem bucketOf_flush (i k : Nat) (st : CollectSt) :
    bucketOf (flushPending i st) k = if k = i then Bucket.addPre st.pending (bucketOf st.cm i) else bucketOf st.cm k := by
  unfold flushPending
  split
  · rename_i h
    rw [h]
    split
    · rename_i hk; rw [hk]; simp [Bucket.addPre]
    · rfl
  · rw [bucketOf_update]

theorem flat_heads {b : Blk} {bs : List Blk} (hp : ∀ c ∈ b.pre, Note c) (hm : Mem b.m) (ys : List Node) :
    (flat (b :: bs) ++ ys).find? (fun s => !s.extra) = some b.m ∧ (flat (b :: bs) ++ ys).find? (·.named) = (flat (b :: bs)).head? := by
  rw [flat_cons, List.append_assoc, List.cons_append, find_code hp, find_head hp]
  refine ⟨by rw [List.find?_cons, hm.2.1]; rfl, ?_⟩
  rw [find_named hm.1]
  cases b.pre <;> rfl

theorem nodup_parts {a b : List Nat} (h : (a ++ b).Nodup) : a.Nodup ∧ b.Nodup ∧ ∀ i ∈ a, i ∉ b := by
  rw [List.nodup_append] at h
  exact ⟨h.1, h.2.1, fun i hi hj => h.2.2 i hi i hj rfl⟩

theorem run_blocks {ys : List Node} (hy : ∀ t ∈ ys, Tok t) (pid : Nat) : ∀ (bs : List Blk) (p : Option Node) (lefts : List Node) (cm : CMap)
    (last : Option (Nat × Nat)) (st : CollectSt), Blks p bs → RowsB (last.map (·.2)) bs → lefts.find? (·.named) = p → bs ≠ [] →
    (∀ b ∈ bs, Visit b.m) → (idsOf (flat bs)).Nodup → (∀ i ∈ idsOf (flat bs), bucketOf cm i = .empty) →
    collectKids lefts (flat bs ++ ys) ⟨cm, [], last⟩ = .ok st →
    (∀ i, i ∉ idsOf (flat bs) → bucketOf (finishPending pid st) i = bucketOf cm i) ∧ Owned (finishPending pid st) p bs ∧
      (∀ b ∈ bs, All (KidsB (finishPending pid st)) b.m) ∧
      ∀ c ∈ flat bs, ¬ Mem c → bucketOf (finishPending pid st) c.id = .empty
  | [], _, _, _, _, _, _, _, _, hne, _, _, _, _ => absurd rfl hne
  | b :: bs, p, lefts, cm, last, st, hb, hr, hl, _, hv, hn, hf, h => by
    cases hb with
    | cons h1 h2 h3 h4 h5 h6 =>
    obtain ⟨hr1, hr2, hr3⟩ := hr
    rw [flat_cons, idsOf_append, idsOf, idsOf_append] at hn hf
    obtain ⟨-, hn1, hn2⟩ := nodup_parts hn
    obtain ⟨hn3, hn4, hn5⟩ := nodup_parts hn1
    obtain ⟨-, hn6, hn7⟩ := nodup_parts hn4
    rw [ids_eq, List.nodup_cons] at hn3
    have hmid : b.m.id ∈ b.m.ids := by rw [ids_eq]; exact List.mem_cons_self
    have hkid : ∀ i ∈ idsOf b.m.children, i ∈ b.m.ids := fun i hi => by rw [ids_eq]; exact List.mem_cons_of_mem _ hi
    -- the ids outside of the member and the remaining blocks
    rw [flat_cons, List.append_assoc, List.cons_append, List.append_assoc,
      sim_pre h2 _ b.pre lefts cm [] last h1 (fun i row hi c hc => hr1 row (by rw [hi]; rfl) c hc), sim_mem h2, hl, List.nil_append] at h
    cases hcm : collect b.m (flushPending b.m.id ⟨cm, notesOf p b.pre (some b.m), last⟩) with
    | error e => rw [hcm] at h; cases h
    | ok cm1 =>
    rw [hcm] at h
    replace h : collectKids (b.m :: (b.pre.reverse ++ lefts)) (b.post ++ (flat bs ++ ys)) ⟨cm1, [], some (b.m.id, b.m.endRow)⟩ = .ok st := h
    have hfl := bucketOf_flush b.m.id (st := ⟨cm, notesOf p b.pre (some b.m), last⟩)
    obtain ⟨v1, v2⟩ := hv b List.mem_cons_self _ cm1 hcm (fun i hi => by
      rw [hfl, if_neg (fun (e : i = b.m.id) => hn3.1 (e ▸ hi))]
      exact hf i (List.mem_append_right _ (List.mem_append_left _ (hkid i hi))))
    have b1 : bucketOf cm1 b.m.id = ⟨notesOf p b.pre (some b.m), [], []⟩ := by
      rw [v1 _ hn3.1, hfl, if_pos rfl]
      show Bucket.addPre _ (bucketOf cm b.m.id) = _
      rw [hf _ (List.mem_append_right _ (List.mem_append_left _ hmid))]
      rfl
    have b2 : ∀ i, i ∉ b.m.ids → bucketOf cm1 i = bucketOf cm i := by
      intro i hi
      rw [v1 i (fun hc => hi (hkid i hc)), hfl, if_neg (fun (e : i = b.m.id) => hi (e ▸ hmid))]
    -- a summary of what is left to show
    have done : ∀ (F : CMap), (∀ i, i ∉ idsOf (flat bs) → i ≠ b.m.id → bucketOf F i = bucketOf cm1 i) →
        bucketOf F b.m.id = ⟨notesOf p b.pre (some b.m), notesOf (some b.m) b.post (flat bs).head?, []⟩ →
        Owned F (lastN (some b.m) b.post) bs → (∀ b ∈ bs, All (KidsB F) b.m) → (∀ c ∈ flat bs, ¬ Mem c → bucketOf F c.id = .empty) →
        (∀ i, i ∉ idsOf (flat (b :: bs)) → bucketOf F i = bucketOf cm i) ∧ Owned F p (b :: bs) ∧
        (∀ b' ∈ b :: bs, All (KidsB F) b'.m) ∧ ∀ c ∈ flat (b :: bs), ¬ Mem c → bucketOf F c.id = .empty := by
      intro F d1 d2 d3 d4 d5
      have dk : ∀ i ∈ idsOf b.m.children, bucketOf F i = bucketOf cm1 i := fun i hi =>
        d1 i (fun hc => hn5 i (hkid i hi) (List.mem_append_right _ hc)) (fun e => hn3.1 (e ▸ hi))
      have quiet : ∀ c : Node, c.id ∈ idsOf b.pre ∨ c.id ∈ idsOf b.post → bucketOf F c.id = .empty := by
        intro c hc
        have hnm : c.id ∉ b.m.ids := by
          rcases hc with hc | hc
          · exact fun hm => hn2 _ hc (List.mem_append_left _ hm)
          · exact fun hm => hn5 _ hm (List.mem_append_left _ hc)
        have hnf : c.id ∉ idsOf (flat bs) := by
          rcases hc with hc | hc
          · exact fun hm => hn2 _ hc (List.mem_append_right _ (List.mem_append_right _ hm))
          · exact hn7 _ hc
        rw [d1 _ hnf (fun e => hnm (e ▸ hmid)), b2 _ hnm]
        refine hf _ ?_
        rcases hc with hc | hc
        · exact List.mem_append_left _ hc
        · exact List.mem_append_right _ (List.mem_append_right _ (List.mem_append_left _ hc))
      refine ⟨fun i hi => ?_, ⟨d2, d3⟩, fun b' hb' => ?_, fun c hc hm => ?_⟩
      · rw [flat_cons, idsOf_append, idsOf, idsOf_append] at hi
        have hnm : i ∉ b.m.ids := fun h => hi (List.mem_append_right _ (List.mem_append_left _ h))
        rw [d1 i (fun h => hi (List.mem_append_right _ (List.mem_append_right _ (List.mem_append_right _ h)))) (fun e => hnm (e ▸ hmid)), b2 i hnm]
      · rcases List.mem_cons.1 hb' with rfl | hb'
        · exact kidsB_same v2 dk
        · exact d4 b' hb'
      · rw [flat_cons, List.mem_append, List.mem_cons, List.mem_append] at hc
        rcases hc with hc | rfl | hc | hc
        · exact quiet c (.inl (id_mem hc))
        · exact absurd h2 hm
        · exact quiet c (.inr (id_mem hc))
        · exact d5 c hc hm
    have hfind : (b.m :: (b.pre.reverse ++ lefts)).find? (·.named) = some b.m := find_named h2.1
    cases bs with
    | nil =>
      obtain ⟨st', t1, t2⟩ := sim_tail hy pid b.post (b.m :: (b.pre.reverse ++ lefts)) cm1 [] h3 (fun h => absurd rfl h) hr2
      rw [flat_nil, List.nil_append, t1] at h
      cases h
      refine done _ (fun i _ hi => by rw [t2 i, if_neg hi]) ?_ trivial (fun _ h => nomatch h) (fun _ h => nomatch h)
      rw [t2, if_pos rfl, b1, hfind]
      rfl
    | cons b' bs' =>
      cases h6 with
      | cons g1 g2 g3 g4 g5 g6 =>
      have hfresh : ∀ i ∈ idsOf (flat (b' :: bs')), bucketOf cm1 i = .empty := by
        intro i hi
        rw [b2 i (fun hm => hn5 i hm (List.mem_append_right _ hi))]
        exact hf i (List.mem_append_right _ (List.mem_append_right _ (List.mem_append_right _ hi)))
      cases hpost : b.post with
      | nil =>
        rw [hpost] at h g5 done
        obtain ⟨r1, r2, r3, r4⟩ := run_blocks hy pid (b' :: bs') (some b.m) _ cm1 (some (b.m.id, b.m.endRow)) st (.cons g1 g2 g3 g4 g5 g6) hr3 hfind (by simp)
          (fun x hx => hv x (List.mem_cons_of_mem _ hx)) hn6 hfresh h
        refine done _ (fun i hi _ => r1 i hi) ?_ r2 r3 r4
        rw [r1 _ (fun hc => hn5 _ hmid (List.mem_append_right _ hc)), b1]
        rfl
      | cons e r =>
        rw [hpost] at h g5 done h4 h3
        simp only [PostOk, List.isEmpty_cons, Bool.false_eq_true, if_false] at h4
        obtain ⟨h4, rfl⟩ := h4
        have he := h3 e List.mem_cons_self
        obtain ⟨w1, w2⟩ := flat_heads (bs := bs') g1 g2 ys
        rw [List.singleton_append, sim_eol he h4 w1 (assoc_punct (member_calm g2.2.2)) _ w2 hfind] at h
        obtain ⟨r1, r2, r3, r4⟩ := run_blocks hy pid (b' :: bs') (some e) _ _ (some (b.m.id, b.m.endRow)) st (.cons g1 g2 g3 g4 g5 g6) hr3 (find_named he.named) (by simp)
          (fun x hx => hv x (List.mem_cons_of_mem _ hx)) hn6 (fun i hi => by
            rw [bucketOf_update, if_neg (fun (e : i = b.m.id) => hn5 _ hmid (List.mem_append_right _ (e ▸ hi)))]
            exact hfresh i hi) h
        refine done _ (fun i hi hm => by rw [r1 i hi, bucketOf_update, if_neg hm]) ?_ r2 r3 r4
        rw [r1 _ (fun hc => hn5 _ hmid (List.mem_append_right _ hc)), bucketOf_update, if_pos rfl, b1]
        rfl

theorem flat_cases {p : Option Node} {bs : List Blk} (h : Blks p bs) {c : Node} (hc : c ∈ flat bs) : (∃ b ∈ bs, c = b.m) ∨ Note c := by
  induction h with
  | nil => cases hc
  | cons h1 h2 h3 h4 h5 h6 ih =>
    rw [flat_cons, List.mem_append, List.mem_cons, List.mem_append] at hc
    rcases hc with hc | hc | hc | hc
    · exact .inr (h1 c hc)
    · exact .inl ⟨_, List.mem_cons_self, hc⟩
    · exact .inr (h3 c hc)
    · rcases ih hc with ⟨b, hb, e⟩ | h
      · exact .inl ⟨b, List.mem_cons_of_mem _ hb, e⟩
      · exact .inr h

theorem collect_node (n : Node) (cm : CMap) : collect n cm =
    if !isVisited n.named n.extra n.kind then .ok cm
    else match n.children with
      | [] => .ok (cm.update (fun b => b) n.id)
      | c :: cs => (collectKids [] (c :: cs) ⟨cm.update (fun b => b) n.id, [], none⟩).bind (fun st => .ok (finishPending n.id st)) := by
  cases n with
  | mk a b c d e f g h i j k cs =>
    rw [collect]
    split <;> rename_i hv
    · rfl
    · cases cs <;> rfl

theorem bucketOf_touch (cm : CMap) (i k : Nat) : bucketOf (cm.update (fun b => b) i) k = bucketOf cm k := by
  rw [bucketOf_update]
  split
  · rename_i h; rw [h]
  · rfl

theorem finish_nil {pid : Nat} {st : CollectSt} (h : st.pending = []) (k : Nat) : bucketOf (finishPending pid st) k = bucketOf st.cm k := by
  have : ∀ (i : Nat) (f : Bucket → Bucket), (∀ b, f b = b) → bucketOf (st.cm.update f i) k = bucketOf st.cm k := by
    intro i f hf
    rw [bucketOf_update]
    split
    · rename_i h; rw [h, hf]
    · rfl
  unfold finishPending
  split
  all_goals (
    rw [h]
    refine this _ _ (fun b => ?_)
    cases b
    simp [Bucket.addPost, Bucket.addDangling])

/-- **The owners of the comments of a settled tree.** -/
theorem collect_visit {n : Node} (hs : All Sett n) : (n.associable = false → n.children = []) → n.Closed → n.ids.Nodup → Visit n := by
  induction hs with
  | mk hs hk ih =>
  rename_i n
  intro hl hc hn cm0 cm1 h hf
  rw [collect_node] at h
  rw [Node.closed_eq] at hc
  rw [ids_eq, List.nodup_cons] at hn
  split at h
  · rename_i hv
    cases h
    refine ⟨fun _ _ => rfl, leaf_kidsB (hl ?_)⟩
    unfold isVisited at hv
    unfold Node.associable
    cases h1 : n.named <;> cases h2 : n.extra <;> cases h3 : isAssociableUnnamedKind n.kind <;> rw [h1, h2, h3] at hv <;> first | rfl | cases hv
  · have hkids : ∀ c ∈ n.children, (c.associable = false → c.children = []) ∧ c.Closed ∧ c.ids.Nodup := by
      have : ∀ cs : List Node, kidsClosed cs → (idsOf cs).Nodup →
          ∀ c ∈ cs, (c.associable = false → c.children = []) ∧ c.Closed ∧ c.ids.Nodup := by
        intro cs
        induction cs with
        | nil => exact fun _ _ c hc => nomatch hc
        | cons d r ihr =>
          intro hc hn c hm
          rw [kidsClosed] at hc
          rw [idsOf] at hn
          obtain ⟨n1, n2, -⟩ := nodup_parts hn
          rcases List.mem_cons.1 hm with rfl | hm
          · exact ⟨hc.1, hc.2.1, n1⟩
          · exact ihr hc.2.2 n2 c hm
      exact this _ hc hn.2
    have hvis : ∀ c ∈ n.children, Visit c := fun c hc => ih c hc (hkids c hc).1 (hkids c hc).2.1 (hkids c hc).2.2
    cases hcs : n.children with
    | nil =>
      rw [hcs] at h
      cases h
      exact ⟨fun i _ => bucketOf_touch _ _ _, leaf_kidsB hcs⟩
    | cons c cs =>
      rw [← hcs]
      rw [hcs] at h
      replace h : (collectKids [] (c :: cs) ⟨cm0.update (fun b => b) n.id, [], none⟩).bind (fun st => .ok (finishPending n.id st)) = .ok cm1 := h
      rw [← hcs] at h
      cases hst : collectKids [] n.children ⟨cm0.update (fun b => b) n.id, [], none⟩ with
      | error e => rw [hst] at h; cases h
      | ok st =>
      rw [hst] at h
      replace h : finishPending n.id st = cm1 := by cases h; rfl
      have hf' : ∀ i ∈ idsOf n.children, bucketOf (cm0.update (fun b => b) n.id) i = .empty := fun i hi => by rw [bucketOf_touch]; exact hf i hi
      cases hb : bodyKinds.contains n.kind with
      | false =>
        obtain ⟨p1, p2, p3⟩ := run_plain n.children [] _ st (hs.calm hb) (fun c hc => (hkids c hc).1) hvis hn.2 hf' rfl hst
        have same := finish_nil (pid := n.id) p1
        rw [h] at same
        refine ⟨fun i hi => by rw [same, p2 i hi]; exact bucketOf_touch _ _ _, .mk ⟨fun _ c hc => ⟨hs.calm hb c hc, by rw [same]; exact (p3 c hc).1⟩,
          fun hb' => by rw [hb] at hb'; cases hb'⟩ fun c hc => kidsB_same (p3 c hc).2 (fun i _ => same i)⟩
      | true =>
        obtain ⟨xs, bs, ys, e1, e2, e3, e4, e5⟩ := hs.body hb
        rw [e1, List.append_assoc, sim_toks xs _ _ _ e2, List.append_nil] at hst
        have hnl : ∀ t, Tok t → t.associable = false := fun t ht => by unfold Node.associable; rw [ht.1, ht.2.1, ht.2.2]; rfl
        have toks : ∀ t ∈ n.children, Tok t → All (KidsB cm1) t := fun t ht hk => leaf_kidsB ((hkids t ht).1 (hnl t hk))
        have hfind : xs.reverse.find? (·.named) = none := by
          rw [List.find?_eq_none]
          intro t ht
          rw [(e2 t (List.mem_reverse.1 ht)).1]; exact Bool.false_ne_true
        by_cases hbs : bs = []
        · subst hbs
          have hst' := sim_toks ys [] xs.reverse ⟨cm0.update (fun b => b) n.id, [], none⟩ e3
          rw [List.append_nil] at hst'
          rw [flat_nil, List.nil_append, hst', collectKids] at hst
          cases hst
          have same : ∀ k, bucketOf cm1 k = bucketOf cm0 k := fun k => by rw [← h, finish_nil rfl]; exact bucketOf_touch _ _ _
          refine ⟨fun i _ => same i, .mk ⟨fun hb' => (by rw [hb] at hb'; cases hb'), fun _ => ⟨xs, [], ys, e1, e2, e3, e4, e5, trivial, fun c hc _ => ?_⟩⟩ fun c hc => ?_⟩
          · rw [same]; exact hf _ (id_mem hc)
          · refine toks c hc ?_
            rw [e1, flat_nil, List.append_nil] at hc
            rcases List.mem_append.1 hc with hc | hc
            · exact e2 c hc
            · exact e3 c hc
        · have hr := rowsB_of (row := none) e4 e5 (by intro r; simp)
          have hsub : ∀ x ∈ flat bs, x ∈ n.children := fun x hx => by rw [e1]; exact List.mem_append_left _ (List.mem_append_right _ hx)
          rw [e1, idsOf_append, idsOf_append] at hn
          obtain ⟨m1, m2, m3⟩ := nodup_parts hn.2
          obtain ⟨-, m4, m5⟩ := nodup_parts m1
          have hif : ∀ i ∈ idsOf (flat bs), i ∈ idsOf n.children := fun i hi => by
            rw [e1, idsOf_append, idsOf_append]; exact List.mem_append_left _ (List.mem_append_right _ hi)
          obtain ⟨r1, r2, r3, r4⟩ := run_blocks e3 n.id bs none _ _ none st e4 hr hfind hbs (fun b hb => hvis _ (hsub _ (mem_flat hb)))
            m4 (fun i hi => hf' i (hif i hi)) hst
          rw [h] at r1 r2 r3 r4
          have same : ∀ k, k ∉ idsOf (flat bs) → bucketOf cm1 k = bucketOf cm0 k := fun k hk => by rw [r1 k hk]; exact bucketOf_touch _ _ _
          have htok : ∀ t ∈ n.children, Tok t → t.id ∉ idsOf (flat bs) → bucketOf cm1 t.id = .empty := fun t ht _ hi => by
            rw [same _ hi]; exact hf _ (id_mem ht)
          refine ⟨fun i hi => same i (fun hc => hi (hif i hc)), .mk ⟨fun hb' => (by rw [hb] at hb'; cases hb'),
            fun _ => ⟨xs, bs, ys, e1, e2, e3, e4, e5, r2, fun c hc hm => ?_⟩⟩ fun c hc => ?_⟩
          · have hc' := hc
            rw [e1, List.append_assoc, List.mem_append, List.mem_append] at hc'
            rcases hc' with h | h | h
            · exact htok c hc (e2 c h) (fun hi => m5 _ (id_mem h) hi)
            · exact r4 c h hm
            · exact htok c hc (e3 c h) (fun hi => m3 _ (List.mem_append_right _ hi) (id_mem h))
          · have hc' := hc
            rw [e1, List.append_assoc, List.mem_append, List.mem_append] at hc'
            rcases hc' with h | h | h
            · exact toks c hc (e2 c h)
            · rcases flat_cases e4 h with ⟨b, hb, rfl⟩ | hnote
              · exact r3 b hb
              · exact leaf_kidsB hnote.leaf
            · exact toks c hc (e3 c h)

end Afmt.Notes
