import Verif.Notes.Body

/-!
# Lined: the lines of members and comments in the formatted text follow from the marks
-/

namespace Afmt.Notes
open Afmt.Gram
open Afmt.Lines (All All2 gaps base)

section
variable {ro : Comment → Role} {cm : CMap}

theorem marksL_length (m m' : Option Nat) (c : Comment) (ld : Lead) : (marksL m c ld).length = (marksL m' c ld).length := by
  cases ld <;> simp [marksL]

theorem marksX_length : ∀ (k : List (Sum Ch Comment)) (m m' : Option Nat), (marksX ro m k).length = (marksX ro m' k).length
  | [], _, _ => rfl
  | .inl (.c _) :: _, _, _ => rfl
  | .inl (.sep _) :: _, _, _ => rfl
  | .inr c :: r, m, m' => by rw [marksX, marksX, List.length_append, List.length_append, marksL_length m m']

theorem endX_any {k : List (Sum Ch Comment)} (h : k ≠ []) (m m' : Option Nat) : endX ro m k = endX ro m' k := by
  cases k with
  | nil => exact absurd rfl h
  | cons x k =>
    cases x with
    | inl x => cases x <;> rfl
    | inr c => rfl

/-- A leaf has visible characters. -/
def Inky (n : Node) : Prop := n.children ≠ [] ∨ ink n.text ≠ []

theorem kid_note {n c : Node} (h : KidsB cm n) (hc : c ∈ n.children) (hx : c.extra = true) : Note c := by
  cases hb : bodyKinds.contains n.kind with
  | false => rw [(h.calm hb c hc).1] at hx; cases hx
  | true =>
    obtain ⟨xs, bs, ys, e, hxs, hys, hbs, -⟩ := h.body hb
    rw [e, List.mem_append, List.mem_append] at hc
    rcases hc with (hc | hc) | hc
    · rw [(hxs c hc).2.1] at hx; cases hx
    · rcases flat_cases hbs hc with ⟨b, hb, rfl⟩ | h
      · rw [(blks_mem hbs hb).2.1] at hx; cases hx
      · exact h
    · rw [(hys c hc).2.1] at hx; cases hx

/-- What is known about a child. -/
def KidOk (ro : Comment → Role) (cm : CMap) (c : Node) : Prop := (c.extra = true → Note c) ∧ (c.extra = false → CoreOk ro cm c)

theorem piece_length {c : Node} (h : KidOk ro cm c) (m : Option Nat) : (piece ro cm m c).length = extent c ∧ 0 < extent c := by
  unfold piece
  cases hx : c.extra with
  | true =>
    have := extent_note (h.1 hx)
    simp
    omega
  | false =>
    obtain ⟨⟨t, h1, h2⟩, -⟩ := h.2 hx
    rw [if_neg Bool.false_ne_true, marksX_length _ m none, h1 none (by simp), List.length_cons]
    omega

theorem tm_length {body : Bool} : ∀ {cs : List Node} {m : Option Nat}, (∀ c ∈ cs, KidOk ro cm c) → (tm ro cm body m cs).length = extents cs
  | [], _, _ => by rw [extents]; rfl
  | c :: cs, m, h => by
    rw [tm, List.length_append, (piece_length (h c List.mem_cons_self) m).1, tm_length (fun d hd => h d (List.mem_cons_of_mem _ hd)), extents]

theorem piece_head {c : Node} (h : KidOk ro cm c) : ∃ t, ∀ m, m ≠ some 0 → piece ro cm m c = m :: t := by
  unfold piece
  cases hx : c.extra with
  | true =>
    refine ⟨List.replicate (extent c - 1) none, fun m hm => ?_⟩
    rw [if_pos rfl, if_neg hm]
  | false =>
    obtain ⟨⟨t, h1, -⟩, -⟩ := h.2 hx
    exact ⟨t, fun m hm => by rw [if_neg Bool.false_ne_true]; exact h1 m hm⟩

theorem leaf_marks (f : Letter → Bool × Letter) (s : List Letter) (m : Option Nat) (h : s ≠ []) :
    marksX ro m (bareX (inlC (s.map f))) = m :: List.replicate (s.length - 1) none ∧ endX ro m (bareX (inlC (s.map f))) = none := by
  have key : ∀ (s : List Letter), marksX ro none (bareX (inlC (s.map f))) = List.replicate s.length none ∧
      endX ro none (bareX (inlC (s.map f))) = none := by
    intro s
    induction s with
    | nil => exact ⟨rfl, rfl⟩
    | cons x s ih =>
      refine ⟨?_, ih.2⟩
      rw [List.length_cons, List.replicate_succ, ← ih.1]
      rfl
  cases s with
  | nil => exact absurd rfl h
  | cons x s =>
    refine ⟨?_, (key s).2⟩
    rw [List.length_cons, Nat.add_sub_cancel, ← (key s).1]
    rfl

theorem extent_kids {n : Node} (h : n.extra = false) (hc : n.children ≠ []) : extent n = extents n.children := by
  cases n with
  | mk id kind named extra err field sr er sb eb text children =>
    simp only at h hc
    subst h
    cases children with
    | nil => exact absurd rfl hc
    | cons c cs => simp [extent, extents]

theorem extent_leaf {n : Node} (h : n.extra = false) (hc : n.children = []) : extent n = (ink n.text).length := by
  cases n with
  | mk id kind named extra err field sr er sb eb text children =>
    simp only at h hc
    subst h
    subst hc
    simp [extent]

theorem core_kids {n : Node} (hc : n.children ≠ []) : core cm n = conts cm (bodyKinds.contains n.kind) n.children := by
  unfold core
  cases h : n.children with
  | nil => exact absurd h hc
  | cons => rfl

theorem kids_ok' {n : Node} (hk : KidsB cm n) (ih : ∀ c ∈ n.children, c.extra = false → CoreOk ro cm c) : ∀ c ∈ n.children, KidOk ro cm c :=
  fun c hc => ⟨kid_note hk hc, ih c hc⟩

theorem core_ok (hro : Roles ro cm) {n : Node} (h : All (fun n => KidsB cm n ∧ Inky n) n) : n.extra = false → CoreOk ro cm n := by
  induction h with
  | @mk n hq hk ih =>
    intro hx
    by_cases hc : n.children = []
    · have hi : ink n.text ≠ [] := hq.2.resolve_left (fun h => h hc)
      have hl : letters false n.text ≠ [] := by
        intro h'
        rw [← letters_ink n.text false, h'] at hi
        exact hi rfl
      have hcore : core cm n = inlC ((letters false n.text).map (fun c => (!n.named || foldKinds.contains n.kind, c))) := by
        unfold core; rw [hc]
      unfold CoreOk
      rw [hcore, extent_leaf hx hc]
      refine ⟨⟨_, fun m _ => (leaf_marks _ _ m hl).1, ?_⟩, fun m => (leaf_marks _ _ m hl).2⟩
      have : (ink n.text).length = (letters false n.text).length := by rw [← letters_ink n.text false, List.length_map]
      have := List.length_pos_iff.2 hl
      rw [List.length_replicate]
      omega
    · have hko := kids_ok' hq.1 ih
      unfold CoreOk
      rw [core_kids hc, extent_kids hx hc]
      refine ⟨?_, fun m => ?_⟩
      · obtain ⟨c, cs, e⟩ := List.exists_cons_of_ne_nil hc
        obtain ⟨t, ht⟩ := piece_head (hko c (by rw [e]; exact List.mem_cons_self))
        refine ⟨t ++ tm ro cm (bodyKinds.contains n.kind) (gapAfter (bodyKinds.contains n.kind) c cs) cs, fun m hm => ?_, ?_⟩
        · rw [(kids_tm hro hq.1 ih hm).1, e, tm, ht m hm, List.cons_append]
        · have hl := tm_length (body := bodyKinds.contains n.kind) (m := none) hko
          rw [e, tm, ht none (by simp)] at hl
          rw [e]
          simpa using hl
      · by_cases hm : m = some 0
        · subst hm
          -- the line break before the content does not matter for the one after it
          refine (endX_any ?_ (some 0) none).trans ((kids_tm hro hq.1 ih (m := none) (by simp)).2 hc)
          intro h0
          obtain ⟨c, cs, e⟩ := List.exists_cons_of_ne_nil hc
          have hl := (kids_tm hro hq.1 ih (m := none) (by simp)).1
          rw [h0, e, tm] at hl
          obtain ⟨t, ht⟩ := piece_head (hko c (by rw [e]; exact List.mem_cons_self))
          rw [ht none (by simp)] at hl
          cases hl
        · exact (kids_tm hro hq.1 ih hm).2 hc

/-! ### Rows -/

theorem step_zero {c x : Node} (h : stepN c x = 0) : atEnd c x = true := by
  unfold stepN at h
  cases ha : atEnd c x with
  | true => rfl
  | false => rw [ha, if_neg Bool.false_ne_true] at h; split at h <;> cases h

theorem atEnd_second {c x : Node} (h : atEnd c x = true) : x.extra = true := by
  unfold atEnd at h
  simp only [Bool.and_eq_true] at h
  simp_all

theorem gap_zero {body : Bool} (c : Node) (cs : List Node) (h : gapAfter body c cs = some 0) : ∀ x ∈ cs.head?, x.extra = true := by
  intro x hx
  cases cs with
  | nil => cases hx
  | cons y cs =>
    cases hx
    simp only [gapAfter] at h
    split at h
    · exact atEnd_second (step_zero (Option.some.inj h))
    · cases h

/-- The lines of siblings. -/
theorem lineds_of {s : Str} {body : Bool} : ∀ {cs : List Node} {i p : Nat} {m : Option Nat}, RowsM (rowAt s) i p (tm ro cm body m cs) →
    (m = some 0 → ∀ c ∈ cs.head?, c.extra = true) →
    (∀ c ∈ cs, KidOk ro cm c ∧ ∀ i p m, m ≠ some 0 → RowsM (rowAt s) i p (marksX ro m (bareX (core cm c))) → linedN s i c = true) →
    linedNs s body i cs = true
  | [], _, _, _, _, _, _ => by rw [linedNs]
  | c :: cs, i, p, m, h, h0, hk => by
    obtain ⟨hc, hl⟩ := hk c List.mem_cons_self
    obtain ⟨hp1, hp2⟩ := piece_length hc m
    rw [tm] at h
    obtain ⟨h1, h2⟩ := rowsM_append _ _ h
    rw [if_neg (by intro h0; rw [h0] at hp1; simp at hp1; omega), hp1] at h2
    rw [linedNs, Bool.and_eq_true, Bool.and_eq_true]
    refine ⟨⟨?_, ?_⟩, lineds_of h2 (gap_zero c cs) (fun d hd => hk d (List.mem_cons_of_mem _ hd))⟩
    · cases hx : c.extra with
      | true =>
        have := (hc.1 hx).leaf
        cases c with
        | mk id kind named extra err field sr er sb eb text children =>
          simp only at this
          subst this
          rw [linedN, linedNs]
      | false =>
        unfold piece at h1
        rw [hx, if_neg Bool.false_ne_true] at h1
        exact hl i p m (fun h => by have := h0 h c rfl; rw [hx] at this; cases this) h1
    · cases body with
      | false => rfl
      | true =>
        rw [Bool.not_true, Bool.false_or]
        cases cs with
        | nil => rfl
        | cons x cs =>
          obtain ⟨hx, -⟩ := hk x (by simp)
          cases hcn : c.named with
          | false => simp [partedN, oneLine, hcn]
          | true =>
          cases hxn : x.named with
          | false => simp [partedN, oneLine, hxn]
          | true =>
          rw [gapAfter_named hcn hxn, tm] at h2
          obtain ⟨h3, -⟩ := rowsM_append _ _ h2
          simp only [partedN, oneLine, hcn, hxn, Bool.not_true, Bool.false_or, Bool.and_eq_true, Bool.or_eq_true, beq_iff_eq, Bool.not_eq_true']
          by_cases h0 : stepN c x = 0
          · have hxx := atEnd_second (step_zero h0)
            unfold piece at h3
            rw [if_pos hxx, h0, if_pos rfl] at h3
            obtain ⟨h4, h5⟩ := h3
            have hpos := extent_note (hx.1 hxx)
            refine ⟨by rw [h4 0 rfl, h0], .inr ?_⟩
            have := rowsM_same _ _ h5
            rw [show i + extent c + extent x - 1 = i + extent c + (extent x - 1) from by omega]
            exact this.symm
          · obtain ⟨t, ht⟩ := piece_head hx
            rw [ht _ (by intro h; exact h0 (Option.some.inj h))] at h3
            refine ⟨h3.1 _ rfl, .inl ?_⟩
            cases ha : atEnd c x with
            | false => rfl
            | true => exact absurd (by unfold stepN; rw [if_pos ha]) h0

theorem linedN_eq (s : Str) (i : Nat) (n : Node) : linedN s i n = linedNs s (bodyKinds.contains n.kind) i n.children := by
  cases n; rw [linedN]

/-- The lines of a node. -/
theorem lined_of (hro : Roles ro cm) {s : Str} {n : Node} (h : All (fun n => KidsB cm n ∧ Inky n) n) :
    ∀ i p m, m ≠ some 0 → RowsM (rowAt s) i p (marksX ro m (bareX (core cm n))) → linedN s i n = true := by
  induction h with
  | @mk n hq hk ih =>
    intro i p m hm hr
    rw [linedN_eq]
    by_cases hc : n.children = []
    · rw [hc, linedNs]
    · have hcs : ∀ c ∈ n.children, c.extra = false → CoreOk ro cm c := fun c hc => core_ok hro (hk c hc)
      rw [core_kids hc, (kids_tm hro hq.1 hcs hm).1] at hr
      exact lineds_of hr (fun h => absurd h hm) (fun c hcc => ⟨kids_ok' hq.1 hcs c hcc, ih c hcc⟩)

end

end Afmt.Notes
