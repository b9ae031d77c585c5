import Verif.CollectLemmas

/-!
# What `collect_comments` computes: an independent description of the owner of each comment

`Occ.owner` says where a comment belongs by only looking at its siblings.  `collect_slots` shows that the traversal puts
into every slot exactly the comments owned by it (as multiset always, as list when the tree is orderly).
-/

namespace Afmt

/-- A list of comments in the comment map. -/
inductive Slot where
  | pre (id : Nat)
  | post (id : Nat)
  | dangling (id : Nat)
  deriving DecidableEq, Repr

/-- Contents of a slot. -/
def CMap.slot (m : CMap) : Slot → List Comment
  | .pre k => ((m.get? k).map (·.pre)).getD []
  | .post k => ((m.get? k).map (·.post)).getD []
  | .dangling k => ((m.get? k).map (·.dangling)).getD []

/-- Where a comment goes that is not attached directly: to the next associable sibling, else to the previous one, else
to the parent. -/
def farOwner (pid : Nat) (lefts rights : List Node) : Slot :=
  match rights.find? (·.associable) with
  | some s => .pre s.id
  | none => match lefts.find? (·.associable) with
    | some l => .post l.id
    | none => .dangling pid

/-- The owner of a comment:
* before the first associable sibling: the next associable sibling (or the parent if there is none);
* otherwise, if nothing but comments follows: the previous associable sibling;
* if `,` or `;` is the next sibling that is no comment: that token;
* if it ends on the row where the previous associable sibling ends: that sibling;
* otherwise the next associable sibling, or the previous one if there is none. -/
def Occ.owner (o : Occ) : Slot :=
  match o.lefts.find? (·.associable) with
  | none => farOwner o.parent o.lefts o.rights
  | some l =>
    match o.rights.find? (fun s => !s.extra) with
    | none => .post l.id
    | some s =>
      if s.kind = "," ∨ s.kind = ";" then .pre s.id
      else if o.node.endRow = l.endRow then .post l.id
      else farOwner o.parent o.lefts o.rights

mutual
/-- The nodes reachable from a node through associable nodes (including itself). -/
def Node.codeNodes : Node → List Node
  | .mk id kind named extra err field sr er sb eb text children =>
    .mk id kind named extra err field sr er sb eb text children :: kidsCode children
/-- `Node.codeNodes` of siblings. -/
def kidsCode : List Node → List Node
  | [] => []
  | c :: r => (if c.associable then c.codeNodes else []) ++ kidsCode r
end

/-- Two comments with a bare token (operator, bracket, keyword) in between, after an associable sibling and with no
associable sibling in between: then the second one is not directly followed by `,`, `;` or the end of the parent. -/
def NoTokenGap (kids : List Node) : Prop :=
  ∀ ys c1 zs c2 ws, kids = ys ++ c1 :: (zs ++ c2 :: ws) → c1.extra = true → c2.extra = true →
    (∃ l ∈ ys, l.associable = true) → (∀ z ∈ zs, z.associable = false) → (∃ z ∈ zs, z.extra = false) →
    ∃ s, ws.find? (fun s => !s.extra) = some s ∧ s.kind ≠ "," ∧ s.kind ≠ ";"

/-- Siblings end on increasing rows and have no token gap. -/
def KidsOrderly (kids : List Node) : Prop :=
  kids.Pairwise (fun a b => a.endRow ≤ b.endRow) ∧ NoTokenGap kids

/-- Equality or permutation. -/
def Sim (b : Bool) (l1 l2 : List Comment) : Prop := if b then l1 = l2 else l1.Perm l2

theorem Sim.refl (b : Bool) (l : List Comment) : Sim b l l := by
  unfold Sim; split
  · rfl
  · exact .refl _

theorem Sim.trans {b : Bool} {l1 l2 l3 : List Comment} (h : Sim b l1 l2) (h' : Sim b l2 l3) : Sim b l1 l3 := by
  unfold Sim at *; split
  · simp_all
  · simp_all; exact h.trans h'

theorem Sim.append_right {b : Bool} {l1 l2 : List Comment} (h : Sim b l1 l2) (l : List Comment) :
    Sim b (l1 ++ l) (l2 ++ l) := by
  unfold Sim at *; split
  · simp_all
  · rename_i hb
    rw [if_neg hb] at h
    exact List.Perm.append_right l h

/-! ### slots of updated maps -/

theorem get?_update (f : Bucket → Bucket) (id k : Nat) : ∀ m : CMap,
    (CMap.update f id m).get? k = if k = id then some (f ((m.get? id).getD Bucket.empty)) else m.get? k
  | [] => by
    by_cases h : k = id
    · simp [CMap.update, CMap.get?, h]
    · have : ¬ id = k := fun e => h e.symm
      simp [CMap.update, CMap.get?, h, this]
  | (k', b) :: m => by
    have ih := get?_update f id k m
    unfold CMap.update
    by_cases h' : k' = id
    · subst h'
      by_cases h : k = k'
      · subst h; simp [CMap.get?]
      · have : ¬ k' = k := fun e => h e.symm
        simp [CMap.get?, h, this]
    · simp only [h', if_false]
      by_cases h : k = id
      · subst h
        simp only [if_true] at ih ⊢
        simp only [CMap.get?, List.find?_cons, beq_eq_false_iff_ne.2 h'] at ih ⊢
        exact ih
      · simp only [h, if_false] at ih ⊢
        by_cases h2 : k' = k
        · subst h2; simp [CMap.get?]
        · simp only [CMap.get?, List.find?_cons, beq_eq_false_iff_ne.2 h2] at ih ⊢
          exact ih

theorem slot_addPre (cs : List Comment) (id : Nat) (m : CMap) (x : Slot) :
    (m.update (Bucket.addPre cs) id).slot x = m.slot x ++ (if Slot.pre id = x then cs else []) := by
  cases x <;> simp only [CMap.slot, get?_update] <;> rename_i k <;> by_cases h : k = id
  all_goals first
    | (subst h; cases m.get? k <;> simp [Bucket.addPre, Bucket.empty])
    | (have h' : ¬ id = k := fun e => h e.symm
       simp [h, h'])

theorem slot_addPost (cs : List Comment) (id : Nat) (m : CMap) (x : Slot) :
    (m.update (Bucket.addPost cs) id).slot x = m.slot x ++ (if Slot.post id = x then cs else []) := by
  cases x <;> simp only [CMap.slot, get?_update] <;> rename_i k <;> by_cases h : k = id
  all_goals first
    | (subst h; cases m.get? k <;> simp [Bucket.addPost, Bucket.empty])
    | (have h' : ¬ id = k := fun e => h e.symm
       simp [h, h'])

theorem slot_addDangling (cs : List Comment) (id : Nat) (m : CMap) (x : Slot) :
    (m.update (Bucket.addDangling cs) id).slot x = m.slot x ++ (if Slot.dangling id = x then cs else []) := by
  cases x <;> simp only [CMap.slot, get?_update] <;> rename_i k <;> by_cases h : k = id
  all_goals first
    | (subst h; cases m.get? k <;> simp [Bucket.addDangling, Bucket.empty])
    | (have h' : ¬ id = k := fun e => h e.symm
       simp [h, h'])

theorem slot_touch (id : Nat) (m : CMap) (x : Slot) : (m.update (fun b => b) id).slot x = m.slot x := by
  have h : (fun b : Bucket => b) = Bucket.addPre [] := by funext b; cases b; simp [Bucket.addPre]
  rw [h, slot_addPre]; simp

/-- `last` is the previous associable sibling. -/
def LastOk (lefts : List Node) (st : CollectSt) : Prop :=
  st.last = (lefts.find? (·.associable)).map (fun s => (s.id, s.endRow))

/-- Contents of a slot including the pending comments destined for it. -/
def tot (pid : Nat) (lefts rest : List Node) (st : CollectSt) (x : Slot) : List Comment :=
  st.cm.slot x ++ (if farOwner pid lefts rest = x then st.pending else [])

theorem farOwner_skip {pid : Nat} {lefts rest : List Node} {c : Node} (h : c.associable = false) :
    farOwner pid (c :: lefts) rest = farOwner pid lefts (c :: rest) := by
  simp [farOwner, List.find?_cons, h]

theorem isPunct_iff (k : String) : isPunctuationKind k = true ↔ (k = "," ∨ k = ";") := by
  simp [isPunctuationKind]

theorem punct_associable {s : Node} (he : s.extra = false) (h : isPunctuationKind s.kind = true) :
    s.associable = true := by
  simp [Node.associable, he, isAssociableUnnamedKind, h]

/-- The first sibling that is no comment, if punctuation, is the first associable one. -/
theorem find_punct {rights : List Node} {s : Node} (h : rights.find? (fun s => !s.extra) = some s)
    (hp : isPunctuationKind s.kind = true) : rights.find? (·.associable) = some s := by
  induction rights with
  | nil => simp at h
  | cons c r ih =>
    by_cases he : c.extra = true
    · simp only [List.find?_cons, he, Bool.not_true] at h
      have : c.associable = false := by simp [Node.associable, he]
      simp only [List.find?_cons, this]
      exact ih h
    · simp only [Bool.not_eq_true] at he
      simp only [List.find?_cons, he, Bool.not_false] at h
      cases h
      simp [List.find?_cons, punct_associable he hp]

theorem find_none_extra {rights : List Node} (h : rights.find? (fun s => !s.extra) = none) :
    rights.find? (·.associable) = none := by
  simp only [List.find?_eq_none] at h ⊢
  intro s hs
  have := h s hs
  simp only [Bool.not_eq_true, Bool.not_eq_false'] at this
  simp [Node.associable, this]

/-- A pending comment after an associable sibling was deferred because of a following sibling that is no punctuation. -/
def PendOk (lefts rest : List Node) (st : CollectSt) : Prop :=
  st.pending ≠ [] → ∀ l, lefts.find? (·.associable) = some l →
    ∃ zs c1 ys s, lefts = zs ++ c1 :: ys ∧ c1.extra = true ∧ (∀ z ∈ zs, z.associable = false) ∧ l ∈ ys ∧
      (zs.reverse ++ rest).find? (fun s => !s.extra) = some s ∧ isPunctuationKind s.kind = false ∧
      c1.endRow ≠ l.endRow

theorem attach_tot {b : Bool} {pid : Nat} {lefts rights : List Node} {c : Node} {st : CollectSt} (x : Slot)
    (he : c.extra = true) (hl : LastOk lefts st) (hp : b = true → PendOk lefts (c :: rights) st)
    (ho : b = true → KidsOrderly (lefts.reverse ++ c :: rights)) :
    let o : Occ := ⟨pid, c, lefts, rights⟩
    let st' := attachComment o.comment c rights st
    Sim b (tot pid (c :: lefts) rights st' x)
        (tot pid lefts (c :: rights) st x ++ (if o.owner = x then [o.comment] else [])) ∧
      LastOk (c :: lefts) st' ∧ (b = true → PendOk (c :: lefts) rights st') := by
  intro o st'
  have hca : c.associable = false := by simp [Node.associable, he]
  have hfar := farOwner_skip (pid := pid) (lefts := lefts) (rest := rights) hca
  have hfar' : farOwner pid (c :: lefts) rights = farOwner pid lefts rights := by
    rw [hfar]; simp [farOwner, List.find?_cons, hca]
  have hlast : LastOk (c :: lefts) st' := by
    have h1 : st'.last = st.last := by
      show (attachComment _ _ _ _).last = _
      unfold attachComment
      repeat' split
      all_goals first | rfl | (simp_all)
    simp only [LastOk, h1, List.find?_cons, hca]; exact hl
  -- pending comments when nothing is added
  have hkeep : b = true → ∀ st2 : CollectSt, st2.pending = st.pending → PendOk (c :: lefts) rights st2 := by
    intro hb st2 h2 hne l hll
    simp only [List.find?_cons, hca] at hll
    obtain ⟨zs, c1, ys, s, e1, e2, e3, e4, e5, e6, e7⟩ := hp hb (by rw [← h2]; exact hne) l hll
    refine ⟨c :: zs, c1, ys, s, by simp [e1], e2, ?_, e4, by simpa using e5, e6, e7⟩
    intro z hz
    rcases List.mem_cons.1 hz with rfl | hz
    · exact hca
    · exact e3 z hz
  -- a comment attached directly to the slot the pending ones wait for
  have hdirect : ∀ y : Slot, st'.pending = st.pending → st'.cm.slot x = st.cm.slot x ++ (if y = x then [o.comment] else []) →
      o.owner = y → (b = true → farOwner pid lefts rights = y → st.pending = []) →
      Sim b (tot pid (c :: lefts) rights st' x)
        (tot pid lefts (c :: rights) st x ++ (if o.owner = x then [o.comment] else [])) := by
    intro y h1 h2 h3 h4
    simp only [tot, h1, h2, h3, hfar, ← hfar'.symm.trans hfar]
    by_cases hyx : y = x
    · by_cases hfx : farOwner pid lefts rights = x
      · cases b with
        | true => simp [hyx, hfx, h4 rfl (hfx.trans hyx.symm), Sim]
        | false =>
          simp only [hyx, hfx, if_true, Sim, Bool.false_eq_true, if_false, List.append_assoc]
          exact List.perm_append_comm.append_left _
      · simp [hyx, hfx, Sim.refl]
    · simp [hyx, Sim.refl]
  have hdefer : st' = { st with pending := st.pending ++ [o.comment] } → o.owner = farOwner pid lefts rights →
      Sim b (tot pid (c :: lefts) rights st' x)
        (tot pid lefts (c :: rights) st x ++ (if o.owner = x then [o.comment] else [])) := by
    intro h1 h2
    simp only [tot, h1, h2, hfar, ← hfar'.symm.trans hfar]
    by_cases hfx : farOwner pid lefts rights = x
    · simp [hfx, Sim.refl]
    · simp [hfx, Sim.refl]
  cases hfl : lefts.find? (·.associable) with
  | none =>
    have hl' : st.last = none := by rw [hl, hfl]; rfl
    have e : st' = { st with pending := st.pending ++ [o.comment] } := by
      show attachComment _ _ _ _ = _
      simp [attachComment, hl']
    refine ⟨hdefer e (by simp [Occ.owner, o, hfl]), hlast, fun hb => ?_⟩
    intro _ l hll
    simp only [List.find?_cons, hca] at hll
    rw [hfl] at hll; cases hll
  | some l =>
    have hl' : st.last = some (l.id, l.endRow) := by rw [hl, hfl]; rfl
    have hlmem : l ∈ lefts := List.mem_of_find?_eq_some hfl
    have hlas : l.associable = true := by simpa using List.find?_some hfl
    -- contradiction used in the ordered case
    have hcontra : b = true → st.pending ≠ [] →
        (rights.find? (fun s => !s.extra) = none ∨ (∃ s, rights.find? (fun s => !s.extra) = some s ∧
          isPunctuationKind s.kind = true) ∨ c.endRow = l.endRow) → False := by
      intro hb hne hcase
      obtain ⟨zs, c1, ys, s, e1, e2, e3, e4, e5, e6, e7⟩ := hp hb hne l hfl
      have hsplit : lefts.reverse ++ c :: rights = ys.reverse ++ c1 :: (zs.reverse ++ c :: rights) := by
        simp [e1]
      have ⟨hrow, hgap⟩ := ho hb
      rw [hsplit] at hrow
      rcases hcase.symm with h3 | h12
      · rcases h3 with h3 | h3
        · obtain ⟨s', hs', hp'⟩ := h3
          by_cases hz : ∃ z ∈ zs.reverse, z.extra = false
          · obtain ⟨s2, h21, h22, h23⟩ := hgap _ _ _ _ _ hsplit e2 he ⟨l, by simpa using e4, hlas⟩
              (by simpa using e3) hz
            rw [hs'] at h21; cases h21
            rcases (isPunct_iff _).1 hp' with h | h <;> contradiction
          · have hz' : zs.reverse.find? (fun s => !s.extra) = none := by
              simp only [List.find?_eq_none]
              intro z hzm
              by_cases hze : z.extra = true
              · simp [hze]
              · exact absurd ⟨z, hzm, by simpa using hze⟩ hz
            rw [List.find?_append, hz'] at e5
            simp only [Option.none_or, List.find?_cons, he, Bool.not_true] at e5
            rw [hs'] at e5; cases e5
            rw [hp'] at e6; cases e6
        · have h1 := (List.pairwise_append.1 hrow)
          have h2 : l.endRow ≤ c1.endRow := h1.2.2 l (by simpa using e4) c1 (by simp)
          have h4 : c1.endRow ≤ c.endRow := by
            have := h1.2.1
            rw [List.pairwise_cons] at this
            exact this.1 c (by simp)
          omega
      · by_cases hz : ∃ z ∈ zs.reverse, z.extra = false
        · obtain ⟨s2, h21, _⟩ := hgap _ _ _ _ _ hsplit e2 he ⟨l, by simpa using e4, hlas⟩
            (by simpa using e3) hz
          rw [h12] at h21; cases h21
        · have hz' : zs.reverse.find? (fun s => !s.extra) = none := by
            simp only [List.find?_eq_none]
            intro z hzm
            by_cases hze : z.extra = true
            · simp [hze]
            · exact absurd ⟨z, hzm, by simpa using hze⟩ hz
          rw [List.find?_append, hz'] at e5
          simp only [Option.none_or, List.find?_cons, he, Bool.not_true] at e5
          rw [h12] at e5; cases e5
    have hnil : b = true → (rights.find? (fun s => !s.extra) = none ∨
          (∃ s, rights.find? (fun s => !s.extra) = some s ∧
          isPunctuationKind s.kind = true) ∨ c.endRow = l.endRow) → st.pending = [] := by
      intro hb hcase
      by_cases h : st.pending = []
      · exact h
      · exact (hcontra hb h hcase).elim
    cases hfr : rights.find? (fun s => !s.extra) with
    | none =>
      have e : st' = { st with cm := st.cm.update (Bucket.addPost [o.comment]) l.id } := by
        show attachComment _ _ _ _ = _
        simp [attachComment, hl', hfr]
      refine ⟨hdirect (.post l.id) (by rw [e]) (by rw [e]; exact slot_addPost _ _ _ _) ?_ ?_, hlast, ?_⟩
      · simp [Occ.owner, o, hfl, hfr]
      · exact fun hb _ => hnil hb (Or.inl hfr)
      · exact fun hb => hkeep hb _ (by rw [e])
    | some s =>
      by_cases hpu : isPunctuationKind s.kind = true
      · have e : st' = { st with cm := st.cm.update (Bucket.addPre [o.comment]) s.id } := by
          show attachComment _ _ _ _ = _
          simp [attachComment, hl', hfr, hpu]
        refine ⟨hdirect (.pre s.id) (by rw [e]) (by rw [e]; exact slot_addPre _ _ _ _) ?_ ?_, hlast, ?_⟩
        · simp [Occ.owner, o, hfl, hfr, (isPunct_iff _).1 hpu]
        · exact fun hb _ => hnil hb (Or.inr (Or.inl ⟨s, hfr, hpu⟩))
        · exact fun hb => hkeep hb _ (by rw [e])
      · have hpu' : ¬ (s.kind = "," ∨ s.kind = ";") := fun h => hpu ((isPunct_iff _).2 h)
        by_cases hrow : c.endRow = l.endRow
        · have e : st' = { st with cm := st.cm.update (Bucket.addPost [o.comment]) l.id } := by
            show attachComment _ _ _ _ = _
            simp [attachComment, hl', hfr, hpu, hrow]
          refine ⟨hdirect (.post l.id) (by rw [e]) (by rw [e]; exact slot_addPost _ _ _ _) ?_ ?_, hlast, ?_⟩
          · simp [Occ.owner, o, hfl, hfr, hpu', hrow]
          · exact fun hb _ => hnil hb (Or.inr (Or.inr hrow))
          · exact fun hb => hkeep hb _ (by rw [e])
        · have e : st' = { st with pending := st.pending ++ [o.comment] } := by
            show attachComment _ _ _ _ = _
            simp [attachComment, hl', hfr, hpu, hrow]
          refine ⟨hdefer e (by simp [Occ.owner, o, hfl, hfr, hpu', hrow]), hlast, fun hb => ?_⟩
          intro _ l' hll
          simp only [List.find?_cons, hca] at hll
          rw [hfl] at hll; cases hll
          exact ⟨[], c, lefts, s, rfl, he, by simp, hlmem, by simpa using hfr, by simpa using hpu, hrow⟩

theorem flush_slot (id : Nat) (st : CollectSt) (x : Slot) :
    (flushPending id st).slot x = st.cm.slot x ++ (if Slot.pre id = x then st.pending else []) := by
  unfold flushPending
  split
  · rename_i h; simp [h]
  · exact slot_addPre _ _ _ _

theorem finish_slot (n : Node) (lefts : List Node) (st : CollectSt) (x : Slot) (hl : LastOk lefts st) :
    (finishPending n.id st).slot x = tot n.id lefts [] st x := by
  unfold finishPending tot farOwner
  rw [hl]
  cases hf : lefts.find? (·.associable) with
  | none =>
    simp only [slot_addDangling, Option.map_none, List.find?_nil]
    congr 1
  | some l =>
    simp only [slot_addPost, Option.map_some, List.find?_nil]
    congr 1

theorem mem_codeNodes_self (n : Node) : n ∈ n.codeNodes := by
  cases n; simp [Node.codeNodes]

theorem codeNodes_eq (n : Node) : n.codeNodes = n :: kidsCode n.children := by
  cases n; simp [Node.codeNodes]

/-- The comments in slot `x` after processing a node. -/
theorem collect_slots (b : Bool) (n : Node) (cm cm' : CMap) (h : collect n cm = .ok cm') (hc : n.Closed)
    (hv : isVisited n.named n.extra n.kind = true)
    (ho : b = true → ∀ m ∈ n.codeNodes, KidsOrderly m.children) (x : Slot) :
    Sim b (cm'.slot x) (cm.slot x ++ (n.extras.filter (fun o => o.owner == x)).map Occ.comment) := by
  refine collect_induct
    (M := fun n cm cm' => n.Closed → isVisited n.named n.extra n.kind = true →
      (b = true → ∀ m ∈ n.codeNodes, KidsOrderly m.children) →
      Sim b (cm'.slot x) (cm.slot x ++ (n.extras.filter (fun o => o.owner == x)).map Occ.comment))
    (K := fun p lefts rest st st' => kidsClosed rest → LastOk lefts st →
      (b = true → PendOk lefts rest st ∧ KidsOrderly (lefts.reverse ++ rest) ∧
        ∀ m ∈ kidsCode rest, KidsOrderly m.children) →
      Sim b (tot p.id (rest.reverse ++ lefts) [] st' x)
        (tot p.id lefts rest st x ++ ((kidsExtras p.id lefts rest).filter (fun o => o.owner == x)).map Occ.comment) ∧
      LastOk (rest.reverse ++ lefts) st')
    ?_ ?_ ?_ ?_ ?_ ?_ ?_ n cm cm' h hc hv ho
  · intro n cm hv _ hv'; rw [hv] at hv'; cases hv'
  · intro n cm _ hch _ _ _
    rw [extras_of_leaf hch, slot_touch]
    simpa using Sim.refl b _
  · intro n cm st hv hne ih hc _ ho
    rw [Node.closed_eq] at hc
    rw [codeNodes_eq] at ho
    have := ih hc (by simp [LastOk]) (fun hb => ⟨by intro h; simp at h, by simpa using ho hb n (by simp),
      fun m hm => ho hb m (by simp [hm])⟩)
    rw [finish_slot n _ st x this.2, Node.extras_eq]
    refine this.1.trans ?_
    simpa [tot, slot_touch] using Sim.refl b _
  · intro p lefts st _ hl _
    exact ⟨by simpa [kidsExtras] using Sim.refl b _, by simpa using hl⟩
  · intro p lefts c rights st st' k he hk ih hc hl hb
    simp only [kidsClosed] at hc
    have hleaf : c.children = [] := hc.1 (by simp [Node.associable, he])
    obtain ⟨hk', -⟩ := fromNode_eq (pid := p.id) hk
    subst hk'
    obtain ⟨h1, h2, h3⟩ := attach_tot (pid := p.id) (rights := rights) x he hl (fun h => (hb h).1)
      (fun h => (hb h).2.1)
    have hca : c.associable = false := by simp [Node.associable, he]
    have := ih hc.2.2 h2 (fun h => ⟨h3 h, by simpa using (hb h).2.1,
      fun m hm => (hb h).2.2 m (by simp [kidsCode, hca, hm])⟩)
    refine ⟨?_, by simpa using this.2⟩
    have e : (c :: rights).reverse ++ lefts = rights.reverse ++ c :: lefts := by simp
    rw [e]
    refine this.1.trans ((h1.append_right _).trans ?_)
    simp only [kidsExtras, he, if_true, extras_of_leaf hleaf, List.append_nil, List.cons_append, List.nil_append,
      List.filter_cons]
    by_cases hx : (Occ.mk p.id c lefts rights).owner = x
    · simp [hx, Sim.refl]
    · simp [hx, Sim.refl]
  · intro p lefts c rights st st' cm ha hM ih hc hl hb
    simp only [kidsClosed] at hc
    have he : c.extra = false := by simp [Node.associable] at ha; exact ha.1
    have hv : isVisited c.named c.extra c.kind = true := by
      rw [associable_iff_visited he]; simp only [Node.associable, he] at ha; simpa using ha
    have hM' := hM hc.2.1 hv (fun h m hm => (hb h).2.2 m (by simp [kidsCode, ha, hm]))
    have := ih hc.2.2 (by simp [LastOk, ha]) (fun h => ⟨by intro h; simp at h, by simpa using (hb h).2.1,
      fun m hm => (hb h).2.2 m (by simp [kidsCode, hm])⟩)
    refine ⟨?_, by simpa using this.2⟩
    have e : (c :: rights).reverse ++ lefts = rights.reverse ++ c :: lefts := by simp
    rw [e]
    refine this.1.trans ?_
    simp only [kidsExtras, he, Bool.false_eq_true, if_false, List.nil_append, List.filter_append, List.map_append]
    rw [← List.append_assoc]
    refine Sim.append_right ?_ _
    have h0 : tot p.id (c :: lefts) rights ⟨cm, [], some (c.id, c.endRow)⟩ x = cm.slot x := by simp [tot]
    have h1 : tot p.id lefts (c :: rights) st x = (flushPending c.id st).slot x := by
      rw [flush_slot]; simp [tot, farOwner, ha]
    rw [h0, h1]
    exact hM'
  · intro p lefts c rights st st' ha he ih hc hl hb
    simp only [kidsClosed] at hc
    have := ih hc.2.2 (by simpa [LastOk, ha] using hl) (fun h => ⟨?_, by simpa using (hb h).2.1,
      fun m hm => (hb h).2.2 m (by simp [kidsCode, ha, hm])⟩)
    · refine ⟨?_, by simpa using this.2⟩
      have e : (c :: rights).reverse ++ lefts = rights.reverse ++ c :: lefts := by simp
      rw [e]
      refine this.1.trans ?_
      simp only [kidsExtras, he, extras_of_leaf (hc.1 ha), Bool.false_eq_true, if_false, List.nil_append]
      simp only [tot, farOwner_skip ha]
      exact Sim.refl b _
    · intro hne l hll
      simp only [List.find?_cons, ha] at hll
      obtain ⟨zs, c1, ys, s, e1, e2, e3, e4, e5, e6, e7⟩ := (hb h).1 hne l hll
      refine ⟨c :: zs, c1, ys, s, by simp [e1], e2, ?_, e4, by simpa using e5, e6, e7⟩
      intro z hz
      rcases List.mem_cons.1 hz with rfl | hz
      · exact ha
      · exact e3 z hz

/-! ### Keys -/

/-- The key is present. -/
def CMap.HasKey (m : CMap) (k : Nat) : Prop := (m.get? k).isSome = true

theorem hasKey_update (f : Bucket → Bucket) (id k : Nat) (m : CMap) :
    (m.update f id).HasKey k ↔ m.HasKey k ∨ k = id := by
  simp only [CMap.HasKey, get?_update]
  by_cases h : k = id <;> simp [h]

theorem keys_update_nodup (f : Bucket → Bucket) (id : Nat) : ∀ m : CMap, (m.map (·.1)).Nodup →
    ((m.update f id).map (·.1)).Nodup ∧ ∀ k, k ∈ (m.update f id).map (·.1) ↔ k ∈ m.map (·.1) ∨ k = id
  | [], _ => by simp [CMap.update]
  | (k', b) :: m, h => by
    simp only [List.map_cons, List.nodup_cons] at h
    obtain ⟨h1, h2⟩ := keys_update_nodup f id m h.2
    unfold CMap.update
    split
    · rename_i hk
      subst hk
      refine ⟨by simpa using h, fun k => ?_⟩
      simp only [List.map_cons, List.mem_cons]
      constructor
      · intro h; exact Or.inl h
      · rintro (h | h)
        · exact h
        · exact Or.inl h
    · rename_i hk
      refine ⟨?_, fun k => ?_⟩
      · simp only [List.map_cons, List.nodup_cons]
        refine ⟨?_, h1⟩
        rw [h2]
        rintro (h3 | h3)
        · exact h.1 h3
        · exact hk h3
      · simp only [List.map_cons, List.mem_cons, h2, or_assoc]

/-- No key occurs twice (the association list represents a `HashMap`). -/
def KeysNodup (m : CMap) : Prop := (m.map (·.1)).Nodup

theorem collect_nodup (n : Node) (cm cm' : CMap) (h : collect n cm = .ok cm') (hn : KeysNodup cm) :
    KeysNodup cm' := by
  have hatt : ∀ (k : Comment) (c : Node) (rights : List Node) (st : CollectSt), KeysNodup st.cm →
      KeysNodup (attachComment k c rights st).cm := by
    intro k c rights st h
    unfold attachComment
    repeat' split
    all_goals first | exact (keys_update_nodup _ _ _ h).1 | exact h
  have hfl : ∀ (id : Nat) (st : CollectSt), KeysNodup st.cm → KeysNodup (flushPending id st) := by
    intro id st h
    unfold flushPending
    split
    · exact h
    · exact (keys_update_nodup _ _ _ h).1
  have hfi : ∀ (id : Nat) (st : CollectSt), KeysNodup st.cm → KeysNodup (finishPending id st) := by
    intro id st h
    unfold finishPending
    split <;> exact (keys_update_nodup _ _ _ h).1
  exact collect_induct
    (M := fun _ cm cm' => KeysNodup cm → KeysNodup cm')
    (K := fun _ _ _ st st' => KeysNodup st.cm → KeysNodup st'.cm)
    (fun _ _ _ h => h) (fun _ _ _ _ h => (keys_update_nodup _ _ _ h).1)
    (fun _ _ _ _ _ ih h => hfi _ _ (ih (keys_update_nodup _ _ _ h).1))
    (fun _ _ _ h => h) (fun _ _ _ _ _ _ _ _ _ ih h => ih (hatt _ _ _ _ h))
    (fun _ _ _ _ _ _ _ _ hM ih h => ih (hM (hfl _ _ h))) (fun _ _ _ _ _ _ _ _ ih h => ih h) n cm cm' h hn

theorem mem_kidsCode_of_mem {rest : List Node} {s : Node} (h : s ∈ rest) (ha : s.associable = true) :
    s ∈ kidsCode rest := by
  induction rest with
  | nil => cases h
  | cons c r ih =>
    simp only [kidsCode, List.mem_append]
    rcases List.mem_cons.1 h with rfl | h
    · left; simp [ha, mem_codeNodes_self]
    · right; exact ih h

theorem collect_keys (n : Node) (cm cm' : CMap) (h : collect n cm = .ok cm')
    (hv : isVisited n.named n.extra n.kind = true) (k : Nat) :
    cm'.HasKey k ↔ cm.HasKey k ∨ ∃ m ∈ n.codeNodes, m.id = k := by
  refine collect_induct
    (M := fun n cm cm' => isVisited n.named n.extra n.kind = true → ∀ k,
      (cm'.HasKey k ↔ cm.HasKey k ∨ ∃ m ∈ n.codeNodes, m.id = k))
    (K := fun _ _ rest st st' => (∀ i r, st.last = some (i, r) → st.cm.HasKey i) →
      (∀ k, st'.cm.HasKey k ↔ st.cm.HasKey k ∨ ∃ m ∈ kidsCode rest, m.id = k) ∧
      (∀ i r, st'.last = some (i, r) → st'.cm.HasKey i))
    ?_ ?_ ?_ ?_ ?_ ?_ ?_ n cm cm' h hv k
  · intro n cm hv hv'; rw [hv] at hv'; cases hv'
  · intro n cm _ hch _ k
    rw [hasKey_update, codeNodes_eq, hch]
    simp [kidsCode, eq_comm]
  · intro n cm st _ _ ih _ k
    obtain ⟨h1, h2⟩ := ih (by simp)
    have : (finishPending n.id st).HasKey k ↔ st.cm.HasKey k := by
      unfold finishPending
      cases hl : st.last with
      | none =>
        simp only [hasKey_update]
        constructor
        · rintro (h | h)
          · exact h
          · rw [h1]; left; rw [hasKey_update]; exact Or.inr h
        · exact Or.inl
      | some x =>
        obtain ⟨i, r⟩ := x
        simp only [hasKey_update]
        constructor
        · rintro (h | h)
          · exact h
          · rw [h]; exact h2 i r hl
        · exact Or.inl
    rw [this, h1, hasKey_update, codeNodes_eq]
    simp only [List.mem_cons, exists_eq_or_imp, or_assoc, eq_comm (a := k)]
  · intro p lefts st h; exact ⟨by simp [kidsCode], h⟩
  · intro p lefts c rights st st' kk he hk ih hl
    have hca : c.associable = false := by simp [Node.associable, he]
    have hkey : ∀ j, (attachComment kk c rights st).cm.HasKey j →
        st.cm.HasKey j ∨ ∃ m ∈ kidsCode rights, m.id = j := by
      intro j
      unfold attachComment
      split
      · rename_i i r hlast
        split
        · simp only [hasKey_update]
          rintro (h | h)
          · exact Or.inl h
          · rw [h]; exact Or.inl (hl i r hlast)
        · rename_i s hs
          split
          · rename_i hpu
            simp only [hasKey_update]
            rintro (h | h)
            · exact Or.inl h
            · have he' : s.extra = false := by simpa using List.find?_some hs
              exact Or.inr ⟨s, mem_kidsCode_of_mem (List.mem_of_find?_eq_some hs) (punct_associable he' hpu), h.symm⟩
          · split
            · simp only [hasKey_update]
              rintro (h | h)
              · exact Or.inl h
              · rw [h]; exact Or.inl (hl i r hlast)
            · exact Or.inl
      · exact Or.inl
    have hmono : ∀ j, st.cm.HasKey j → (attachComment kk c rights st).cm.HasKey j := by
      intro j h
      unfold attachComment
      repeat' split
      all_goals first | exact (hasKey_update _ _ _ _).2 (Or.inl h) | exact h
    have hlast : (attachComment kk c rights st).last = st.last := by
      unfold attachComment
      repeat' split
      all_goals first | rfl | (simp_all)
    have := ih (by intro i r h; rw [hlast] at h; exact hmono i (hl i r h))
    refine ⟨fun k => ?_, this.2⟩
    rw [this.1]
    simp only [kidsCode, hca, Bool.false_eq_true, if_false, List.nil_append]
    constructor
    · rintro (h | h)
      · exact hkey k h
      · exact Or.inr h
    · rintro (h | h)
      · exact Or.inl (hmono k h)
      · exact Or.inr h
  · intro p lefts c rights st st' cm ha hM ih hl
    have he : c.extra = false := by simp [Node.associable] at ha; exact ha.1
    have hv : isVisited c.named c.extra c.kind = true := by
      rw [associable_iff_visited he]; simp only [Node.associable, he] at ha; simpa using ha
    have hM' := hM hv
    have hfl : ∀ k, (flushPending c.id st).HasKey k ↔ st.cm.HasKey k ∨ (st.pending ≠ [] ∧ k = c.id) := by
      intro k
      unfold flushPending
      split
      · rename_i h; simp [h]
      · rename_i h; rw [hasKey_update]
        have : st.pending ≠ [] := by intro e; exact h e
        simp [this]
    have hck : cm.HasKey c.id := (hM' c.id).2 (Or.inr ⟨c, mem_codeNodes_self c, rfl⟩)
    have := ih (by intro i r h; cases h; exact hck)
    refine ⟨fun k => ?_, this.2⟩
    rw [this.1, hM' k, hfl]
    simp only [kidsCode, ha, if_true, List.mem_append]
    constructor
    · rintro ((( h | h) | h) | h)
      · exact Or.inl h
      · exact Or.inr ⟨c, Or.inl (mem_codeNodes_self c), h.2.symm⟩
      · obtain ⟨m, h1, h2⟩ := h; exact Or.inr ⟨m, Or.inl h1, h2⟩
      · obtain ⟨m, h1, h2⟩ := h; exact Or.inr ⟨m, Or.inr h1, h2⟩
    · rintro (h | ⟨m, h1 | h1, h2⟩)
      · exact Or.inl (Or.inl (Or.inl h))
      · exact Or.inl (Or.inr ⟨m, h1, h2⟩)
      · exact Or.inr ⟨m, h1, h2⟩
  · intro p lefts c rights st st' ha he ih hl
    simpa [kidsCode, ha] using ih hl

end Afmt
