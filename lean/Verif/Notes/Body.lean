import Verif.Notes.Rows

/-!
# Body: the line breaks of members and comments one after the other
-/

namespace Afmt.Notes
open Afmt.Gram
open Afmt.Lines (All All2 gaps base)

section
variable {ro : Comment → Role} {cm : CMap}

/-- Tokens around the members. -/
def TokOk (ro : Comment → Role) (cm : CMap) (t : Node) : Prop := Tok t ∧ bucketOf cm t.id = .empty ∧ CoreOk ro cm t

theorem member_tok {t : Node} (h : Tok t) : isMember t = false := by unfold isMember; rw [h.1]; rfl
theorem member_note {t : Node} (h : Note t) : isMember t = false := by unfold isMember; rw [h.extra]; simp
theorem member_mem {t : Node} (h : Mem t) : isMember t = true := by unfold isMember; rw [h.1, h.2.1]; rfl

theorem conts_tok {t : Node} {ts : List Node} (h : TokOk ro cm t) : conts cm true (t :: ts) = core cm t ++ conts cm true ts := by
  rw [conts, cont_quiet h.1.2.1 h.2.1, if_pos rfl, Gram.brk, member_tok h.1]
  simp

theorem conts_notes {R : List Node} : ∀ {cs : List Node}, (∀ c ∈ cs, Note c) → conts cm true (cs ++ R) = conts cm true R
  | [], _ => rfl
  | c :: cs, h => by
    have hc := h c List.mem_cons_self
    rw [List.cons_append, conts, cont_extra cm hc.extra, if_pos rfl, Gram.brk, member_note hc, conts_notes (fun d hd => h d (List.mem_cons_of_mem _ hd))]
    simp

theorem toks_tm {R : List Node} (hR : ∀ m, m ≠ some 0 → marksX ro m (bareX (conts cm true R)) = tm ro cm true m R ∧
      (R ≠ [] → endX ro m (bareX (conts cm true R)) = none)) : ∀ (ts : List Node), (∀ t ∈ ts, TokOk ro cm t) → ∀ m, m ≠ some 0 →
    marksX ro m (bareX (conts cm true (ts ++ R))) = tm ro cm true m (ts ++ R) ∧
      (ts ++ R ≠ [] → endX ro m (bareX (conts cm true (ts ++ R))) = none)
  | [], _, m, hm => hR m hm
  | t :: ts, h, m, hm => by
    have ht := h t List.mem_cons_self
    obtain ⟨i1, i2⟩ := toks_tm hR ts (fun d hd => h d (List.mem_cons_of_mem _ hd)) none (by simp)
    rw [List.cons_append, conts_tok ht, bareX_append, marksX_append, endX_append, ht.2.2.2 m, tm, gapAfter_token (.inr (.inl ht.1.1)), i1]
    refine ⟨?_, fun _ => ?_⟩
    · unfold piece
      rw [if_neg (by rw [ht.1.2.1]; simp)]
    · by_cases he : ts ++ R = []
      · rw [he]; rfl
      · exact i2 he

theorem flat_head {p : Option Node} {b : Blk} {bs : List Blk} (h : Blks p (b :: bs)) : ∃ y r, flat (b :: bs) = y :: r ∧ y.named = true ∧
    (∀ q, p = some q → atEnd q y = false) := by
  cases h with
  | cons h1 h2 h3 h4 h5 h6 =>
    rw [flat_cons]
    cases hp : b.pre with
    | nil => exact ⟨b.m, _, rfl, h2.1, fun q _ => by unfold atEnd; rw [h2.2.1]; simp⟩
    | cons c r => exact ⟨c, _, rfl, (h1 c (by rw [hp]; exact List.mem_cons_self)).named, fun q hq => h5 q c r hq hp⟩

theorem bucket_some {id : Nat} {pre post : List Comment} (h : bucketOf cm id = ⟨pre, post, []⟩) :
    (cm.get? id).bind (fun b => b.post.getLast?) = post.getLast? := by
  unfold bucketOf at h
  cases hg : cm.get? id with
  | none => rw [hg] at h; simp only [Option.getD_none, Bucket.empty, Bucket.mk.injEq] at h; rw [← h.2.1]; rfl
  | some b => rw [hg] at h; simp only [Option.getD_some] at h; subst h; rfl

/-- Members with their comments. -/
theorem blocks_tm (hro : Roles ro cm) {ys : List Node} (hy : ∀ t ∈ ys, TokOk ro cm t) :
    ∀ (bs : List Blk) (p : Option Node), Blks p bs → apartRows (p.toList ++ flat bs) = true → Owned cm p bs → (∀ b ∈ bs, CoreOk ro cm b.m) →
    ∀ m, m ≠ some 0 → marksX ro m (bareX (conts cm true (flat bs ++ ys))) = tm ro cm true m (flat bs ++ ys) ∧
      (flat bs ++ ys ≠ [] → endX ro m (bareX (conts cm true (flat bs ++ ys))) = none)
  | [], p, _, _, _, _, m, hm => by
    have := toks_tm (ro := ro) (cm := cm) (R := []) (fun m _ => ⟨by rfl, fun h => absurd rfl h⟩) ys hy m hm
    simpa using this
  | b :: bs, p, hb, ha, ho, hk, m, hm => by
    cases hb with
    | cons h1 h2 h3 h4 h5 h6 =>
    have ha' := ha
    rw [flat_cons] at ha
    have ha2 : apartRows (b.m :: (b.post ++ flat bs)) = true := by
      have := ha
      rw [← List.append_assoc] at this
      exact apart_drop this
    have ha3 : apartRows ((lastN (some b.m) b.post).toList ++ flat bs) = true := apart_last ha2
    have ha4 : apartRows (p.toList ++ (b.pre ++ [b.m])) = true := by
      have : apartRows ((p.toList ++ (b.pre ++ [b.m])) ++ (b.post ++ flat bs)) = true := by
        simpa [List.append_assoc] using ha
      exact apart_pre this
    have ha5 : apartRows (b.m :: b.post) = true := apart_pre (b := flat bs) ha2
    obtain ⟨ho1, ho2⟩ := ho
    have hkm := hk b List.mem_cons_self
    have ih := blocks_tm hro hy bs _ h6 ha3 ho2 (fun x hx => hk x (List.mem_cons_of_mem _ hx))
    have hpre := hro.pre b.m.id
    have hpost := hro.post b.m.id
    rw [ho1] at hpre hpost
    have e0 : flat (b :: bs) ++ ys = b.pre ++ b.m :: (b.post ++ (flat bs ++ ys)) := by simp
    have e1 : bareX (conts cm true (flat (b :: bs) ++ ys)) = (notesOf p b.pre (some b.m)).map .inr ++ (bareX (core cm b.m) ++
        ((notesOf (some b.m) b.post (flat bs).head?).map .inr ++ (bareX (Gram.brk cm b.m (b.post ++ (flat bs ++ ys))) ++
          bareX (conts cm true (flat bs ++ ys))))) := by
      rw [e0, conts_notes h1, conts, cont_member h2 ho1, if_pos rfl, conts_notes h3]
      simp [bareX_comC]
    -- the line break after the member
    have hbrk : (∀ z, lastN (some b.m) b.post = some z → marksX ro none (bareX (Gram.brk cm b.m (b.post ++ (flat bs ++ ys))) ++
          bareX (conts cm true (flat bs ++ ys))) = tm ro cm true (gapAfter true z (flat bs ++ ys)) (flat bs ++ ys)) ∧
        endX ro none (bareX (Gram.brk cm b.m (b.post ++ (flat bs ++ ys))) ++ bareX (conts cm true (flat bs ++ ys))) = none := by
      cases hbs : bs with
      | nil =>
        have hany : (b.post ++ (flat [] ++ ys)).any isMember = false := by
          rw [List.any_eq_false]
          intro c hc
          rw [flat_nil, List.nil_append, List.mem_append] at hc
          rcases hc with hc | hc
          · rw [member_note (h3 c hc)]; simp
          · rw [member_tok (hy c hc).1]; simp
        rw [Gram.brk, hany, Bool.and_false, if_neg Bool.false_ne_true, bareX_nil, List.nil_append, flat_nil, List.nil_append]
        have ih := ih none (by simp)
        rw [hbs, flat_nil, List.nil_append] at ih
        refine ⟨fun z _ => ?_, ?_⟩
        · rw [ih.1, gapAfter_token (.inr (.inr ?_))]
          intro x hx
          cases ys with
          | nil => cases hx
          | cons t ts => cases hx; exact (hy _ List.mem_cons_self).1.1
        · by_cases he : ys = []
          · subst he; rfl
          · exact ih.2 he
      | cons b2 bs2 =>
        rw [← hbs]
        obtain ⟨y, r, hf, hyn, hye⟩ := flat_head (hbs ▸ h6)
        rw [← hbs] at hf
        have hany : (b.post ++ (flat bs ++ ys)).any isMember = true := by
          rw [List.any_eq_true]
          refine ⟨b2.m, ?_, ?_⟩
          · rw [hbs]; simp
          · subst hbs
            cases h6 with
            | cons _ h _ _ _ _ => exact member_mem h
        rw [Gram.brk, hany, member_mem h2, Bool.and_self, if_pos rfl]
        obtain ⟨i1, i2⟩ := ih (some (base (trailing cm b.m (b.post ++ (flat bs ++ ys))) + 1)) (by simp)
        refine ⟨fun z hz => ?_, i2 (by rw [hf]; simp)⟩
        refine Eq.trans (b := marksX ro (some (base (trailing cm b.m (b.post ++ (flat bs ++ ys))) + 1)) (bareX (conts cm true (flat bs ++ ys)))) rfl (i1.trans ?_)
        congr 1
        rw [hf, List.cons_append]
        have hl : bs.isEmpty = false := by rw [hbs]; rfl
        rw [hl] at h4
        unfold trailing
        rw [bucket_some ho1]
        cases hpo : b.post with
        | nil =>
          rw [hpo] at hz
          cases hz
          rw [gapAfter_named h2.1 hyn]
          have hfind : (y :: (r ++ ys)).find? (·.named) = some y := by simp [hyn]
          have hat := hye b.m (by rw [hpo]; rfl)
          simp only [notesOf, List.getLast?_nil, List.nil_append, hfind]
          unfold stepN blankBetween base
          rw [hat, if_neg Bool.false_ne_true]
          have e : (decide (b.m.endRow < y.startRow - 1)) = decide (b.m.endRow + 1 < y.startRow) := by
            rw [decide_eq_decide]; omega
          rw [e]
          split <;> rfl
        | cons e post =>
          rw [hpo] at h4 hz
          have h4 : atEnd b.m e = true ∧ post = [] := by simpa [PostOk] using h4
          obtain ⟨-, rfl⟩ := h4
          obtain rfl : e = z := Option.some.inj hz
          have hen := h3 _ (by rw [hpo]; exact List.mem_cons_self)
          rw [gapAfter_named hen.named hyn]
          have hrow : e.endRow < y.startRow := by
            rw [hpo, hf] at ha3
            rcases apart_head (r := r) ha3 (.inl hen.extra) with h | h
            · rw [atEnd_extra hen.extra] at h; cases h
            · exact h
          rw [step_below hen.extra hrow, hf]
          rfl
    have hcore : ∀ g, g ≠ some 0 → marksX ro g (bareX (core cm b.m) ++ ((notesOf (some b.m) b.post (flat bs).head?).map .inr ++
        (bareX (Gram.brk cm b.m (b.post ++ (flat bs ++ ys))) ++ bareX (conts cm true (flat bs ++ ys))))) =
        tm ro cm true g (b.m :: (b.post ++ (flat bs ++ ys))) := by
      intro g _
      rw [marksX_append, hkm.2 g, tm]
      congr 1
      · unfold piece
        rw [if_neg (by rw [h2.2.1]; simp)]
      · exact post_tm b.post b.m none h3 h2.1 hpost ha5 hbrk.1 (.inl rfl)
    refine ⟨?_, fun _ => ?_⟩
    · rw [e1, e0]
      exact pre_tm h2.1 hcore b.pre p true m m h1 hpre ha4 hm (fun _ => rfl) (fun _ => rfl) (fun h => nomatch h)
    · rw [e1]
      refine endX_pre (fun m' => ?_) _ m
      rw [endX_append, hkm.2 m', endX_append, endX_post _ hpost]
      exact hbrk.2

theorem blks_mem : ∀ {bs : List Blk} {p : Option Node}, Blks p bs → ∀ {b : Blk}, b ∈ bs → Mem b.m
  | _ :: _, _, .cons _ h2 _ _ _ h6, b, hb => by
    rcases List.mem_cons.1 hb with rfl | hb
    · exact h2
    · exact blks_mem h6 hb

/-- Children that are no members. -/
theorem calm_tm : ∀ (cs : List Node), (∀ c ∈ cs, c.extra = false ∧ bucketOf cm c.id = .empty ∧ CoreOk ro cm c) → ∀ m,
    marksX ro m (bareX (conts cm false cs)) = tm ro cm false m cs ∧ (cs ≠ [] → endX ro m (bareX (conts cm false cs)) = none)
  | [], _, m => ⟨rfl, fun h => absurd rfl h⟩
  | c :: cs, h, m => by
    obtain ⟨h1, h2, h3⟩ := h c List.mem_cons_self
    obtain ⟨i1, i2⟩ := calm_tm cs (fun d hd => h d (List.mem_cons_of_mem _ hd)) none
    rw [conts, cont_quiet h1 h2, if_neg Bool.false_ne_true, List.nil_append, bareX_append, marksX_append, endX_append, h3.2 m, tm,
      gapAfter_token (.inl rfl), i1]
    refine ⟨?_, fun _ => ?_⟩
    · unfold piece
      rw [if_neg (by rw [h1]; simp)]
    · by_cases he : cs = []
      · rw [he]; rfl
      · exact i2 he

/-- The children of a node. -/
theorem kids_tm (hro : Roles ro cm) {n : Node} (h : KidsB cm n) (hc : ∀ c ∈ n.children, c.extra = false → CoreOk ro cm c) {m : Option Nat} (hm : m ≠ some 0) :
    marksX ro m (bareX (conts cm (bodyKinds.contains n.kind) n.children)) = tm ro cm (bodyKinds.contains n.kind) m n.children ∧
      (n.children ≠ [] → endX ro m (bareX (conts cm (bodyKinds.contains n.kind) n.children)) = none) := by
  cases hb : bodyKinds.contains n.kind with
  | false =>
    refine calm_tm _ (fun c hcc => ?_) m
    obtain ⟨h1, h2⟩ := h.calm hb c hcc
    exact ⟨h1, h2, hc c hcc h1⟩
  | true =>
    obtain ⟨xs, bs, ys, e, hx, hy, hbs, ha, ho, hq⟩ := h.body hb
    have tok : ∀ t ∈ n.children, Tok t → TokOk ro cm t := fun t ht htt =>
      ⟨htt, hq t ht (fun hm => by have := hm.1; rw [htt.1] at this; cases this), hc t ht htt.2.1⟩
    rw [e] at tok hc ⊢
    rw [List.append_assoc]
    refine toks_tm (fun m hm => ?_) xs (fun t ht => tok t (by simp [ht]) (hx t ht)) m hm
    refine blocks_tm hro (fun t ht => tok t (by simp [ht]) (hy t ht)) bs none hbs ha ho (fun b hb => ?_) m hm
    refine hc b.m ?_ ?_
    · have : b.m ∈ flat bs := by
        unfold flat
        rw [List.mem_flatMap]
        exact ⟨b, hb, by simp [Blk.nodes]⟩
      simp [this]
    · exact (blks_mem hbs hb).2.1

end

end Afmt.Notes
