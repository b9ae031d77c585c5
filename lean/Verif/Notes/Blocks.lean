import Verif.Settled
import Verif.CollectSpec
import Verif.Notes.Tac
import Verif.Lines.Frame

/-!
# Members with their comments

`collect_comments` for bodies in which the comments are between members.
-/

namespace Afmt.Notes
open Afmt.Gram
open Afmt.Lines (All)

/-! ### Comments of neighbours -/

/-- The comment of a node between two named nodes. -/
def noteOf (p : Option Node) (c : Node) (x : Option Node) : Comment :=
  let t := if c.kind == "line_comment" then CommentType.line else CommentType.block
  { id := c.id, value := trimEnd c.text, type := t, meta' := CommentMetadata.of c t p x }

/-- The comments of consecutive named nodes between two named nodes. -/
def notesOf (p : Option Node) : List Node → Option Node → List Comment
  | [], _ => []
  | c :: r, x => noteOf p c (r.head?.or x) :: notesOf (some c) r x

/-- The last of the nodes, or `p`. -/
def lastN (p : Option Node) : List Node → Option Node
  | [] => p
  | c :: r => lastN (some c) r

theorem lastN_append (p : Option Node) (a b : List Node) : lastN p (a ++ b) = lastN (lastN p a) b := by
  induction a generalizing p with
  | nil => rfl
  | cons c a ih => exact ih _

theorem notesOf_append (x : Option Node) (b : List Node) : ∀ (a : List Node) (p : Option Node),
    notesOf p (a ++ b) x = notesOf p a (b.head?.or x) ++ notesOf (lastN p a) b x
  | [], p => rfl
  | c :: a, p => by
    rw [List.cons_append, notesOf, notesOf, lastN, notesOf_append x b a, List.cons_append]
    congr 2
    cases a <;> simp

/-- A member with the comments before and after it. -/
structure Blk where
  pre : List Node
  m : Node
  post : List Node

/-- The nodes of a block. -/
def Blk.nodes (b : Blk) : List Node := b.pre ++ b.m :: b.post

/-- The nodes of blocks. -/
def flat (bs : List Blk) : List Node := bs.flatMap Blk.nodes

@[simp] theorem flat_nil : flat [] = [] := rfl
@[simp] theorem flat_cons (b : Blk) (bs : List Blk) : flat (b :: bs) = b.pre ++ b.m :: (b.post ++ flat bs) := by
  simp [flat, Blk.nodes]

/-- A member. -/
def Mem (n : Node) : Prop := n.named = true ∧ n.extra = false ∧ memberKinds.contains n.kind = true

theorem member_calm {k : String} (h : memberKinds.contains k = true) : isAssociableUnnamedKind k = false := by
  cases ha : isAssociableUnnamedKind k with
  | false => rfl
  | true =>
    unfold isAssociableUnnamedKind isPunctuationKind at ha
    simp only [Bool.or_eq_true, beq_iff_eq] at ha
    rcases ha with (rfl | rfl) | rfl <;> exact absurd h (by decide +kernel)

/-- A comment. -/
def Note (n : Node) : Prop := isNote n = true

/-- A token that owns no comments. -/
def Tok (n : Node) : Prop := n.named = false ∧ n.extra = false ∧ isAssociableUnnamedKind n.kind = false

theorem Note.extra {n : Node} (h : Note n) : n.extra = true := by
  unfold Note isNote at h; simp only [Bool.and_eq_true] at h; exact h.1.1.1
theorem Note.named {n : Node} (h : Note n) : n.named = true := by
  unfold Note isNote at h; simp only [Bool.and_eq_true] at h; exact h.1.1.2
theorem Note.leaf {n : Node} (h : Note n) : n.children = [] := by
  unfold Note isNote at h; simp only [Bool.and_eq_true] at h; simpa using h.1.2
theorem Note.rows {n : Node} (h : Note n) : n.startRow ≤ n.endRow := by
  unfold Note isNote at h
  simp only [Bool.and_eq_true, Bool.or_eq_true, decide_eq_true_eq, beq_iff_eq] at h
  rcases h.2 with h | h
  · omega
  · exact h.2
theorem Note.kind {n : Node} (h : Note n) : n.isCommentKind = true := by
  unfold Note isNote at h
  simp only [Bool.and_eq_true, Bool.or_eq_true, decide_eq_true_eq, beq_iff_eq] at h
  unfold Node.isCommentKind
  rcases h.2 with h | h
  · simp [h.1.1.1]
  · simp [h.1.1.1.1]
theorem Note.oneRow {n : Node} (h : Note n) (hk : n.kind = "line_comment") : n.startRow = n.endRow := by
  unfold Note isNote at h
  simp only [Bool.and_eq_true, Bool.or_eq_true, decide_eq_true_eq, beq_iff_eq] at h
  rcases h.2 with h | h
  · exact h.2
  · rw [hk] at h; exact absurd h.1.1.1.1 (by decide)

theorem apart_tail {c : Node} {r : List Node} (h : apartRows (c :: r) = true) : apartRows r = true := by
  cases r with
  | nil => rfl
  | cons x r => rw [apartRows, Bool.and_eq_true] at h; exact h.2

/-- The rows of a comment and its neighbour. -/
theorem apart_head {c x : Node} {r : List Node} (h : apartRows (c :: x :: r) = true) (hx : c.extra = true ∨ x.extra = true) :
    atEnd c x = true ∨ c.endRow < x.startRow := by
  rw [apartRows, Bool.and_eq_true] at h
  have h := h.1
  simp only [Bool.or_eq_true, Bool.not_eq_true', Bool.or_eq_false_iff, decide_eq_true_eq] at h
  rcases h with (⟨h1, h2⟩ | h) | h
  · rcases hx with hx | hx <;> simp_all
  · exact .inl h
  · exact .inr h

/-- The comments after a member: one at the end of its line and, if it is the last one, all others. -/
def PostOk (m : Node) (last : Bool) : List Node → Prop
  | [] => True
  | c :: r => if last then True else atEnd m c = true ∧ r = []

/-- The first of the comments before a member is not at the end of a line. -/
def FirstOk (p : Option Node) (pre : List Node) : Prop := ∀ q c r, p = some q → pre = c :: r → atEnd q c = false

/-- Blocks of members and comments. -/
inductive Blks : Option Node → List Blk → Prop
  | nil {p : Option Node} : Blks p []
  | cons {p : Option Node} {b : Blk} {bs : List Blk} : (∀ c ∈ b.pre, Note c) → Mem b.m → (∀ c ∈ b.post, Note c) →
      PostOk b.m bs.isEmpty b.post → FirstOk p b.pre → Blks (lastN (some b.m) b.post) bs → Blks p (b :: bs)

/-- Named nodes with a member are blocks. -/
theorem blocks_of : ∀ (ms : List Node), (∀ c ∈ ms, Mem c ∨ Note c) → (∃ c ∈ ms, Mem c) →
    ∃ bs, bs ≠ [] ∧ flat bs = ms ∧ Blks none bs
  | [], _, h => by obtain ⟨c, hc, _⟩ := h; cases hc
  | x :: r, h, hm => by
    have hr : ∀ c ∈ r, Mem c ∨ Note c := fun c hc => h c (List.mem_cons_of_mem _ hc)
    rcases h x List.mem_cons_self with hx | hx
    · by_cases hmr : ∃ c ∈ r, Mem c
      · obtain ⟨bs, hne, hf, hb⟩ := blocks_of r hr hmr
        cases hb with
        | nil => exact absurd rfl hne
        | @cons _ b bs h1 h2 h3 h4 h5 h6 =>
          have std : FirstOk (some x) b.pre → ∃ bs, bs ≠ [] ∧ flat bs = x :: r ∧ Blks none bs := by
            intro hfo
            refine ⟨⟨[], x, []⟩ :: b :: bs, by simp, by rw [flat_cons, hf]; rfl, ?_⟩
            exact .cons (by simp) hx (by simp) trivial (fun _ _ _ h => nomatch h) (.cons h1 h2 h3 h4 hfo h6)
          cases hp : b.pre with
          | nil => exact std (by rw [hp]; exact fun _ _ _ _ h => nomatch h)
          | cons e pre =>
            by_cases he : atEnd x e = true
            · refine ⟨⟨[], x, [e]⟩ :: ⟨pre, b.m, b.post⟩ :: bs, by simp, ?_, ?_⟩
              · rw [← hf]
                simp [hp]
              · rw [hp] at h1
                refine .cons (by simp) hx (by simp [h1 e]) (by simp [PostOk, he]) (fun _ _ _ h => nomatch h) ?_
                refine .cons (fun c hc => h1 c (List.mem_cons_of_mem _ hc)) h2 h3 h4 ?_ h6
                intro q c r' hq _
                simp only [lastN, Option.some.injEq] at hq
                subst hq
                unfold atEnd
                simp [(h1 e List.mem_cons_self).extra]
            · refine std ?_
              intro q c r' hq hc
              rw [hp] at hc
              cases hq; cases hc
              simpa using he
      · refine ⟨[⟨[], x, r⟩], by simp, by simp, ?_⟩
        refine .cons (by simp) hx ?_ ?_ (fun _ _ _ h => nomatch h) .nil
        · intro c hc
          rcases hr c hc with h' | h'
          · exact absurd ⟨c, hc, h'⟩ hmr
          · exact h'
        · unfold PostOk
          cases r <;> simp
    · have hmr : ∃ c ∈ r, Mem c := by
        obtain ⟨c, hc, hcm⟩ := hm
        rcases List.mem_cons.1 hc with rfl | hc
        · have := hx.extra; rw [hcm.2.1] at this; cases this
        · exact ⟨c, hc, hcm⟩
      obtain ⟨bs, hne, hf, hb⟩ := blocks_of r hr hmr
      cases hb with
      | nil => exact absurd rfl hne
      | @cons _ b bs h1 h2 h3 h4 h5 h6 =>
        refine ⟨⟨x :: b.pre, b.m, b.post⟩ :: bs, by simp, by rw [← hf]; simp, ?_⟩
        refine .cons ?_ h2 h3 h4 (fun _ _ _ h => nomatch h) h6
        intro c hc
        rcases List.mem_cons.1 hc with rfl | hc
        · exact hx
        · exact h1 c hc

/-! ### The loop over the children of a body -/

theorem bucketOf_update (f : Bucket → Bucket) (i k : Nat) (cm : CMap) :
    bucketOf (cm.update f i) k = if k = i then f (bucketOf cm i) else bucketOf cm k := by
  unfold bucketOf
  rw [get?_update]
  split <;> rfl

theorem from_note {c : Node} (h : Note c) (lefts rights : List Node) :
    Comment.fromNode c lefts rights = .ok (noteOf (lefts.find? (·.named)) c (rights.find? (·.named))) := by
  obtain ⟨k, hk⟩ := fromNode_ok lefts rights h.kind
  rw [hk, (fromNode_eq (pid := 0) hk).1]
  rfl

theorem find_named {c : Node} {r : List Node} (h : c.named = true) : (c :: r).find? (·.named) = some c := by
  rw [List.find?_cons, h]

theorem find_head {r R : List Node} (h : ∀ c ∈ r, Note c) : (r ++ R).find? (·.named) = r.head?.or (R.find? (·.named)) := by
  cases r with
  | nil => rfl
  | cons c r => rw [List.cons_append, find_named (h c List.mem_cons_self).named]; rfl

theorem find_code {r R : List Node} (h : ∀ c ∈ r, Note c) : (r ++ R).find? (fun s => !s.extra) = R.find? (fun s => !s.extra) := by
  induction r with
  | nil => rfl
  | cons c r ih =>
    rw [List.cons_append, List.find?_cons, (h c List.mem_cons_self).extra]
    exact ih (fun d hd => h d (List.mem_cons_of_mem _ hd))

theorem lastN_find {r : List Node} (h : ∀ c ∈ r, Note c) : ∀ (lefts : List Node),
    (r.reverse ++ lefts).find? (·.named) = lastN (lefts.find? (·.named)) r := by
  induction r with
  | nil => intro lefts; rfl
  | cons c r ih =>
    intro lefts
    rw [List.reverse_cons, List.append_assoc, List.singleton_append, ih (fun d hd => h d (List.mem_cons_of_mem _ hd)),
      find_named (h c List.mem_cons_self).named]
    rfl

theorem assoc_punct {k : String} (h : isAssociableUnnamedKind k = false) : isPunctuationKind k = false := by
  unfold isAssociableUnnamedKind at h
  simp only [Bool.or_eq_false_iff] at h
  exact h.1

/-- The comments before a member are pending. -/
theorem sim_pre {m : Node} (hm : Mem m) (R : List Node) : ∀ (pre lefts : List Node) (cm : CMap) (q : List Comment)
    (last : Option (Nat × Nat)), (∀ c ∈ pre, Note c) → (∀ i row, last = some (i, row) → ∀ c ∈ pre, c.endRow ≠ row) →
    collectKids lefts (pre ++ m :: R) ⟨cm, q, last⟩ =
      collectKids (pre.reverse ++ lefts) (m :: R) ⟨cm, q ++ notesOf (lefts.find? (·.named)) pre (some m), last⟩
  | [], lefts, cm, q, last, _, _ => by simp [notesOf]
  | c :: r, lefts, cm, q, last, h, hl => by
    have hc := h c List.mem_cons_self
    have hr : ∀ d ∈ r, Note d := fun d hd => h d (List.mem_cons_of_mem _ hd)
    have hat : attachComment (noteOf (lefts.find? (·.named)) c (r.head?.or (some m))) c (r ++ m :: R) ⟨cm, q, last⟩ =
        ⟨cm, q ++ [noteOf (lefts.find? (·.named)) c (r.head?.or (some m))], last⟩ := by
      unfold attachComment
      cases last with
      | none => rfl
      | some x =>
        obtain ⟨i, row⟩ := x
        have := hl i row rfl c List.mem_cons_self
        have hf : (m :: R).find? (fun s => !s.extra) = some m := by rw [List.find?_cons, hm.2.1]; rfl
        simp only [find_code hr, hf, assoc_punct (member_calm hm.2.2), Bool.false_eq_true, if_false, if_neg this]
    rw [List.cons_append, collectKids, if_pos hc.extra, from_note hc, find_head hr, find_named hm.1]
    show collectKids (c :: lefts) (r ++ m :: R) (attachComment _ c (r ++ m :: R) _) = _
    rw [hat, sim_pre hm R r (c :: lefts) cm _ last hr (fun i row hi d hd => hl i row hi d (List.mem_cons_of_mem _ hd)),
      find_named hc.named, notesOf, List.append_assoc, List.reverse_cons, List.append_assoc]
    rfl

/-- A member is visited with the pending comments before it. -/
theorem sim_mem {m : Node} (hm : Mem m) (R lefts : List Node) (st : CollectSt) :
    collectKids lefts (m :: R) st = (do
      let cm ← collect m (flushPending m.id st)
      collectKids (m :: lefts) R ⟨cm, [], some (m.id, m.endRow)⟩) := by
  rw [collectKids, if_neg (by rw [hm.2.1]; exact Bool.false_ne_true), if_pos (by simp [hm.1])]

/-- A token is skipped. -/
theorem sim_toks : ∀ (ts R lefts : List Node) (st : CollectSt), (∀ t ∈ ts, Tok t) →
    collectKids lefts (ts ++ R) st = collectKids (ts.reverse ++ lefts) R st
  | [], R, lefts, st, _ => rfl
  | t :: ts, R, lefts, st, h => by
    have ht := h t List.mem_cons_self
    rw [List.cons_append, collectKids, if_neg (by rw [ht.2.1]; exact Bool.false_ne_true), if_neg (by simp [ht.1, ht.2.2]),
      sim_toks ts R (t :: lefts) st (fun x hx => h x (List.mem_cons_of_mem _ hx)), List.reverse_cons, List.append_assoc]
    rfl

/-- A comment at the end of the line of a member. -/
theorem sim_eol {m c s : Node} {R lefts : List Node} {cm : CMap} (hc : Note c) (he : atEnd m c = true)
    (hR : R.find? (fun s => !s.extra) = some s) (hs : isPunctuationKind s.kind = false) (x : Option Node)
    (hx : R.find? (·.named) = x) (hl : lefts.find? (·.named) = some m) :
    collectKids lefts (c :: R) ⟨cm, [], some (m.id, m.endRow)⟩ =
      collectKids (c :: lefts) R ⟨cm.update (Bucket.addPost [noteOf (some m) c x]) m.id, [], some (m.id, m.endRow)⟩ := by
  rw [collectKids, if_pos hc.extra, from_note hc, hl, hx]
  have hrow : c.endRow = m.endRow := by
    unfold atEnd at he
    simp only [Bool.and_eq_true, beq_iff_eq] at he
    rw [← hc.oneRow he.1.2, he.2]
  show collectKids (c :: lefts) R (attachComment _ c R _) = _
  unfold attachComment
  simp only [hR, hs, Bool.false_eq_true, if_false, hrow, if_true]

/-- The comments after the last member. -/
theorem sim_tail {m : Node} {ys : List Node} (hy : ∀ t ∈ ys, Tok t) (pid : Nat) : ∀ (ts lefts : List Node) (cm : CMap) (q : List Comment),
    (∀ c ∈ ts, Note c) → (q ≠ [] → ys ≠ [] ∧ ∀ c ∈ ts, c.endRow ≠ m.endRow) →
    (∀ c r, ts = c :: r → ∀ d ∈ r, d.endRow ≠ m.endRow) →
    ∃ st, collectKids lefts (ts ++ ys) ⟨cm, q, some (m.id, m.endRow)⟩ = .ok st ∧ ∀ k,
      bucketOf (finishPending pid st) k =
        if k = m.id then Bucket.addPost (q ++ notesOf (lefts.find? (·.named)) ts none) (bucketOf cm m.id) else bucketOf cm k
  | [], lefts, cm, q, _, _, _ => by
    refine ⟨⟨cm, q, some (m.id, m.endRow)⟩, ?_, ?_⟩
    · have := sim_toks ys [] lefts ⟨cm, q, some (m.id, m.endRow)⟩ hy
      rw [List.append_nil] at this
      rw [List.nil_append, this, collectKids]
    · intro k
      simp only [finishPending, notesOf, List.append_nil]
      rw [bucketOf_update]
  | c :: r, lefts, cm, q, h, hq, hr => by
    have hc := h c List.mem_cons_self
    have hr' : ∀ d ∈ r, Note d := fun d hd => h d (List.mem_cons_of_mem _ hd)
    have hne := hr c r rfl
    have hyn : ys.find? (·.named) = none := by
      rw [List.find?_eq_none]; intro t ht; simp [(hy t ht).1]
    rw [List.cons_append, collectKids, if_pos hc.extra, from_note hc, find_head hr', hyn]
    show ∃ st, collectKids (c :: lefts) (r ++ ys) (attachComment _ c (r ++ ys) _) = .ok st ∧ _
    have direct : q = [] → attachComment (noteOf (lefts.find? (·.named)) c (r.head?.or none)) c (r ++ ys) ⟨cm, q, some (m.id, m.endRow)⟩ =
        ⟨cm.update (Bucket.addPost [noteOf (lefts.find? (·.named)) c (r.head?.or none)]) m.id, q, some (m.id, m.endRow)⟩ →
        ∃ st, collectKids (c :: lefts) (r ++ ys) (attachComment (noteOf (lefts.find? (·.named)) c (r.head?.or none)) c (r ++ ys)
          ⟨cm, q, some (m.id, m.endRow)⟩) = .ok st ∧ ∀ k, bucketOf (finishPending pid st) k =
            if k = m.id then Bucket.addPost (q ++ notesOf (lefts.find? (·.named)) (c :: r) none) (bucketOf cm m.id) else bucketOf cm k := by
      intro h0 ha
      subst h0
      obtain ⟨st, h1, h2⟩ := sim_tail hy pid r (c :: lefts) (cm.update (Bucket.addPost [noteOf (lefts.find? (·.named)) c (r.head?.or none)]) m.id) []
        hr' (fun h => absurd rfl h) (fun d r' hd e he => hne e (by rw [hd]; exact List.mem_cons_of_mem _ he))
      refine ⟨st, by rw [ha]; exact h1, fun k => ?_⟩
      rw [h2 k, bucketOf_update, bucketOf_update, find_named hc.named, notesOf]
      by_cases hk : k = m.id
      · simp [hk, Bucket.addPost]
      · simp [hk]
    cases ys with
    | nil =>
      have h0 : q = [] := by
        cases q with
        | nil => rfl
        | cons => exact absurd rfl (hq (by simp)).1
      refine direct h0 ?_
      unfold attachComment
      have : (r ++ ([] : List Node)).find? (fun s => !s.extra) = none := by rw [find_code hr']; rfl
      simp only [this]
    | cons y ys =>
      have hfy : (r ++ y :: ys).find? (fun s => !s.extra) = some y := by
        rw [find_code hr', List.find?_cons, (hy y List.mem_cons_self).2.1]; rfl
      have hpy := assoc_punct (hy y List.mem_cons_self).2.2
      by_cases he : c.endRow = m.endRow
      · have h0 : q = [] := by
          cases q with
          | nil => rfl
          | cons => exact absurd he ((hq (by simp)).2 c List.mem_cons_self)
        refine direct h0 ?_
        unfold attachComment
        simp only [hfy, hpy, Bool.false_eq_true, if_false, he, if_true]
      · have ha : attachComment (noteOf (lefts.find? (·.named)) c (r.head?.or none)) c (r ++ y :: ys) ⟨cm, q, some (m.id, m.endRow)⟩ =
            ⟨cm, q ++ [noteOf (lefts.find? (·.named)) c (r.head?.or none)], some (m.id, m.endRow)⟩ := by
          unfold attachComment
          simp only [hfy, hpy, Bool.false_eq_true, if_false, if_neg he]
        obtain ⟨st, h1, h2⟩ := sim_tail hy pid r (c :: lefts) cm (q ++ [noteOf (lefts.find? (·.named)) c (r.head?.or none)])
          hr' (fun _ => ⟨by simp, hne⟩) (fun d r' hd e he => hne e (by rw [hd]; exact List.mem_cons_of_mem _ he))
        refine ⟨st, by rw [ha]; exact h1, fun k => ?_⟩
        rw [h2 k, find_named hc.named, notesOf, List.append_assoc]
        rfl

end Afmt.Notes
