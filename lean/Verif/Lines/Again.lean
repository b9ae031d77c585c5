import Verif.Lines.Rows
import Verif.PropsShape

/-!
# Formatting again: the tree of the formatted text has the same skeleton
-/

namespace Afmt.Lines
open Gram

/-! ### Trees that look alike -/

theorem fold_len {a b : Str} (h : fold a = fold b) : a.length = b.length := by
  have := congrArg List.length h
  simpa [fold] using this

mutual
theorem alike_len : ∀ (a b : Node) (pk : String) (pf : Option String), alike pk pf a b = true → (code a).length = (code b).length
  | .mk id kind named extra err field sr er sb eb text children,
    .mk id' kind' named' extra' err' field' sr' er' sb' eb' text' children', pk, pf, h => by
    simp only [alike, Bool.and_eq_true, beq_iff_eq] at h
    obtain ⟨⟨⟨⟨⟨⟨⟨⟨rfl, rfl⟩, rfl⟩, rfl⟩, rfl⟩, -⟩, h7⟩, -⟩, h9⟩ := h
    have hl := alikes_len children children' _ _ h9
    cases extra with
    | true => cases children <;> cases children' <;> simp [code]
    | false =>
      cases children with
      | nil =>
        cases children' with
        | nil =>
          simp only [List.isEmpty_nil, Bool.not_true, Bool.false_or, beq_iff_eq] at h7
          simp only [code, Bool.false_eq_true, if_false, List.length_map]
          exact fold_len h7
        | cons => simp [alikes] at h9
      | cons c cs =>
        cases children' with
        | nil => simp [alikes] at h9
        | cons c' cs' =>
          simp only [codes] at hl
          simp only [code, Bool.false_eq_true, if_false]
          exact hl
theorem alikes_len : ∀ (as bs : List Node) (pk : String) (pf : Option String), alikes pk pf as bs = true →
    (codes as).length = (codes bs).length
  | [], [], _, _, _ => rfl
  | [], _ :: _, _, _, h => by simp [alikes] at h
  | _ :: _, [], _, _, h => by simp [alikes] at h
  | a :: as, b :: bs, pk, pf, h => by
    rw [alikes, Bool.and_eq_true] at h
    rw [codes, codes, List.length_append, List.length_append, alike_len a b _ _ h.1, alikes_len as bs _ _ h.2]
end

theorem alike_named {pk : String} {pf : Option String} {a b : Node} (h : alike pk pf a b = true) :
    a.named = b.named ∧ a.extra = b.extra ∧ a.kind = b.kind ∧ a.field = b.field := by
  cases a; cases b
  simp only [alike, Bool.and_eq_true, beq_iff_eq] at h
  exact ⟨h.1.1.1.1.1.1.1.2, h.1.1.1.1.1.1.2, h.1.1.1.1.1.1.1.1, h.1.1.1.1.2⟩

/-! ### Bodies -/

/-- After a member comes another one, or none comes any more. -/
def Tight : List Node → Prop
  | [] => True
  | c :: cs => (c.named = true → (∀ x ∈ cs, x.named = false) ∨ ∃ x t, cs = x :: t ∧ x.named = true) ∧ Tight cs

theorem tight_unnamed : ∀ {cs : List Node}, (∀ c ∈ cs, c.named = false) → Tight cs
  | [], _ => trivial
  | c :: cs, h => ⟨fun hc => (by rw [h c (by simp)] at hc; cases hc), tight_unnamed (fun x hx => h x (by simp [hx]))⟩

theorem tight_pre {bs : List Node} (hb : Tight bs) : ∀ {as : List Node}, (∀ c ∈ as, c.named = false) → Tight (as ++ bs)
  | [], _ => hb
  | c :: cs, h => ⟨fun hc => (by rw [h c (by simp)] at hc; cases hc), tight_pre hb (fun x hx => h x (by simp [hx]))⟩

theorem tight_members {bs : List Node} (hb : ∀ c ∈ bs, c.named = false) : ∀ {as : List Node}, (∀ c ∈ as, c.named = true) → Tight (as ++ bs)
  | [], _ => tight_unnamed hb
  | [c], h => ⟨fun _ => .inl hb, tight_unnamed hb⟩
  | c :: d :: cs, h => ⟨fun _ => .inr ⟨d, cs ++ bs, rfl, h d (by simp)⟩, tight_members hb (as := d :: cs) (fun x hx => h x (by simp [hx]))⟩

theorem tight_of {cs : List Node} (h : Framed cs) : Tight cs := by
  obtain ⟨xs, ms, ys, rfl, h1, h2, h3⟩ := h
  rw [List.append_assoc]
  exact tight_pre (tight_members h3 h2) h1

theorem find_unnamed : ∀ {cs : List Node}, (∀ x ∈ cs, x.named = false) → cs.find? (·.named) = none := by
  intro cs h
  rw [List.find?_eq_none]
  intro x hx
  simp [h x hx]

theorem alikes_unnamed : ∀ {as bs : List Node} {pk : String} {pf : Option String}, alikes pk pf as bs = true →
    (∀ x ∈ as, x.named = false) → ∀ x ∈ bs, x.named = false
  | [], [], _, _, _, _, x, hx => by cases hx
  | [], _ :: _, _, _, h, _, _, _ => by simp [alikes] at h
  | _ :: _, [], _, _, h, _, _, _ => by simp [alikes] at h
  | a :: as, b :: bs, pk, pf, h, hn, x, hx => by
    rw [alikes, Bool.and_eq_true] at h
    rcases List.mem_cons.1 hx with rfl | hx
    · rw [← (alike_named h.1).1]; exact hn a (by simp)
    · exact alikes_unnamed h.2 (fun y hy => hn y (by simp [hy])) x hx

theorem placed_rows {s : Str} {i : Nat} {n : Node} (h : placed s i n = true) :
    n.startRow = rowAt s i ∧ n.endRow = rowAt s (i + (code n).length - 1) := by
  cases n
  simp only [placed, Bool.and_eq_true, beq_iff_eq] at h
  exact ⟨h.1.1, h.1.2⟩

/-- Next to a member the two trees look the same. -/
theorem around_eq {body kb : Bool} {s : Str} {i : Nat} {pk : String} {pf : Option String} {c c' : Node}
    {lefts lefts' cs cs' : List Node} (hc : alike pk pf c c' = true) (hcs : alikes pk pf cs cs' = true)
    (hp : placed s i c' = true) (hps : placeds s (i + (code c').length) cs' = true)
    (hl : (!kb || parted s (i + (code c).length) c cs) = true) (hb : body = true → kb = true) (ht : body = true → Tight (c :: cs))
    (he : c.extra = false) : around false body lefts c cs = around false body lefts' c' cs' ∧
      (!body || !c'.named || (cs'.find? (·.named)).all (fun x => x.startRow != 0)) = true := by
  obtain ⟨h1, h2, -, -⟩ := alike_named hc
  have hlen := alike_len c c' _ _ hc
  unfold around
  rw [← h2, ← h1, he]
  simp only [Bool.false_eq_true, if_false, Bool.not_false, Bool.and_true, Around.mk.injEq, true_and]
  by_cases hbn : (body && c.named) = true
  · rw [if_pos hbn, if_pos hbn]
    rw [Bool.and_eq_true] at hbn
    obtain ⟨rfl, hcn⟩ := hbn
    rcases (ht rfl).1 hcn with hu | ⟨x, t, rfl, hxn⟩
    · rw [find_unnamed hu, find_unnamed (alikes_unnamed hcs hu)]
      simp
    · cases cs' with
      | nil => simp [alikes] at hcs
      | cons x' t' =>
        rw [alikes, Bool.and_eq_true] at hcs
        have hxn' : x'.named = true := by rw [← (alike_named hcs.1).1]; exact hxn
        rw [placeds, Bool.and_eq_true] at hps
        have hr := (placed_rows hps.1).1
        have hr' := (placed_rows hp).2
        rw [hb rfl] at hl
        simp only [Bool.not_true, Bool.false_or, parted, hcn, hxn, beq_iff_eq] at hl
        simp only [List.find?_cons, hxn, hxn', Option.map_some, Option.some.injEq, Prod.mk.injEq]
        rw [hlen] at hl
        rw [← hr, ← hr'] at hl
        have h0 : x'.startRow ≠ 0 := by rw [hl]; split <;> omega
        have hb1 : decide (c'.endRow + 1 < x'.startRow) = blankBetween c x := by
          cases hbb : blankBetween c x with
          | true => rw [hl, hbb]; simp
          | false => rw [hl, hbb]; simp
        have hz : (x'.startRow == 0) = false := by simpa using h0
        rw [hz, hb1]
        simp [blankBetween, h0]
  · rw [if_neg hbn, if_neg hbn]
    refine ⟨rfl, ?_⟩
    cases body <;> cases hn : c.named <;> simp_all

theorem body_kinds {pk : String} {field : Option String} {kind : String} (h : isBodyNode pk field kind = true)
    (hc : pk = "constructor_declaration" → field = some "body" → kind = "constructor_body") : bodyKinds.contains kind = true := by
  unfold isBodyNode at h
  rw [Bool.or_eq_true] at h
  rcases h with h | h
  · simp only [List.contains_eq_mem, List.mem_cons, List.not_mem_nil, or_false, decide_eq_true_eq] at h
    rcases h with rfl | rfl | rfl | rfl <;> decide
  · simp only [Bool.and_eq_true, beq_iff_eq] at h
    rw [hc h.1 h.2]
    decide

theorem shown_alike {pk : String} {pf : Option String} {a b : Node} (h : alike pk pf a b = true) : a.shown pk pf = b.shown pk pf := by
  have hk : ∀ {as bs : List Node} {pk : String} {pf : Option String}, alikes pk pf as bs = true → as.any (·.named) = bs.any (·.named) := by
    intro as
    induction as with
    | nil => intro bs _ _ h; cases bs with | nil => rfl | cons => simp [alikes] at h
    | cons a as ih =>
      intro bs _ _ h
      cases bs with
      | nil => simp [alikes] at h
      | cons b bs =>
        rw [alikes, Bool.and_eq_true] at h
        rw [List.any_cons, List.any_cons, (alike_named h.1).1, ih h.2]
  obtain ⟨h1, h2, h3, h4⟩ := alike_named h
  unfold Node.shown
  rw [h2, h3, h4]
  cases a with
  | mk _ _ _ _ _ _ _ _ _ _ _ children =>
  cases b with
  | mk _ _ _ _ _ _ _ _ _ _ _ children' =>
    simp only [alike, Bool.and_eq_true] at h
    simp only [hk h.2]

mutual
theorem skel_eq (s : Str) : ∀ (a b : Node) (pk : String) (pf : Option String) (body : Bool) (l r l' r' : List Node) (i : Nat),
    alike pk pf a b = true → placed s i b = true → lined s i a = true → All Frame a → All (fun x => code x ≠ []) a →
    (pk = "constructor_declaration" → a.field = some "body" → a.kind = "constructor_body") →
    around false body l a r = around false body l' b r' →
    a.skel false pk pf body l r = b.skel false pk pf body l' r' ∧ late pk b = true
  | .mk id kind named extra err field sr er sb eb text children,
    .mk id' kind' named' extra' err' field' sr' er' sb' eb' text' children', pk, pf, body, l, r, l', r', i, ha, hp, hl, hf, hc, hk, har => by
    have hsh := shown_alike ha
    simp only [alike, Bool.and_eq_true, beq_iff_eq] at ha
    obtain ⟨⟨⟨⟨⟨⟨⟨⟨rfl, rfl⟩, rfl⟩, rfl⟩, rfl⟩, h6⟩, h7⟩, h8⟩, h9⟩ := ha
    simp only [placed, Bool.and_eq_true, beq_iff_eq] at hp
    rw [lined] at hl
    have hkids := skels_eq s children children' kind field (isBodyNode pk field kind) (bodyKinds.contains kind) [] [] i
      h9 hp.2 hl (fun x hx => hf.kid hx) (fun x hx => hc.kid hx)
      (fun h x hx => hf.here.ctor h x hx) (fun h => body_kinds h hk)
      (fun h => tight_of (hf.here.body (body_kinds h hk)))
    refine ⟨?_, by rw [late]; exact hkids.2⟩
    rw [Node.skel, Node.skel]
    simp only [hkids.1, har, h8, ← hsh, Skel.mk.injEq, true_and, and_true]
    split
    · rename_i hs
      rw [hs] at h6
      simp only [Bool.not_true, Bool.false_or, beq_iff_eq] at h6
      rw [h6]
    · rfl
theorem skels_eq (s : Str) : ∀ (as bs : List Node) (pk : String) (pf : Option String) (body kb : Bool) (l l' : List Node) (i : Nat),
    alikes pk pf as bs = true → placeds s i bs = true → lineds s kb i as = true → (∀ x ∈ as, All Frame x) →
    (∀ x ∈ as, All (fun x => code x ≠ []) x) →
    (pk = "constructor_declaration" → ∀ x ∈ as, x.field = some "body" → x.kind = "constructor_body") →
    (body = true → kb = true) → (body = true → Tight as) →
    skels false pk pf body l as = skels false pk pf body l' bs ∧ lates pk body bs = true
  | [], [], _, _, _, _, _, _, _, _, _, _, _, _, _, _, _ => by rw [skels, skels, lates]; simp
  | [], _ :: _, _, _, _, _, _, _, _, h, _, _, _, _, _, _, _ => by simp [alikes] at h
  | _ :: _, [], _, _, _, _, _, _, _, h, _, _, _, _, _, _, _ => by simp [alikes] at h
  | a :: as, b :: bs, pk, pf, body, kb, l, l', i, ha, hp, hl, hf, hc, hk, hb, ht => by
    rw [alikes, Bool.and_eq_true] at ha
    rw [placeds, Bool.and_eq_true] at hp
    rw [lineds, Bool.and_eq_true, Bool.and_eq_true] at hl
    have har := around_eq (lefts := l) (lefts' := l') ha.1 ha.2 hp.1 hp.2 hl.1.2 hb ht (code_extra (hc a (by simp)).here)
    have hlen := alike_len a b _ _ ha.1
    have h1 := skel_eq s a b pk pf body l as l' bs i ha.1 hp.1 hl.1.1 (hf a (by simp)) (hc a (by simp))
      (fun h => hk h a (by simp)) har.1
    have h2 := skels_eq s as bs pk pf body kb (a :: l) (b :: l') _ ha.2 hp.2 (by rw [← hlen]; exact hl.2) (fun x hx => hf x (by simp [hx]))
        (fun x hx => hc x (by simp [hx])) (fun h x hx => hk h x (by simp [hx])) hb (fun h => (ht h).2)
    refine ⟨by rw [skels, skels, h1.1, h2.1], ?_⟩
    rw [lates, h1.2, h2.2, har.2]
    rfl
end

end Afmt.Lines
