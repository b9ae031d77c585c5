import Verif.Notes.Source
import Verif.Lines.Rows
import Verif.Gram.Final

/-!
# Rows: the lines of members and comments in the formatted text
-/

namespace Afmt.Notes
open Afmt.Gram
open Afmt.Lines (All All2 gaps base)

/-! ### Rows of visible characters -/

/-- Rows of the characters with marks; `p` is the row of the character before the `i`-th one. -/
def RowsM (r : Nat → Nat) : Nat → Nat → List (Option Nat) → Prop
  | _, _, [] => True
  | i, p, g :: l => (∀ b, g = some b → r i = p + b) ∧ RowsM r (i + 1) (r i) l

theorem rowsM_of_gaps {r : Nat → Nat} : ∀ (s : Str) {g i p : Nat} {ms : List (Option Nat)},
    All2 Fits (gaps g s) ms → (∀ j, r (i + j) = p + g + rowAt s j) → RowsM r i p ms
  | [], g, i, p, ms, h, _ => by
    rw [gaps] at h
    cases h
    trivial
  | c :: s, g, i, p, ms, h, hr => by
    rw [gaps] at h
    simp only [rowAt] at hr
    by_cases hn : c = '\n'
    · simp only [hn, if_true] at h hr
      exact rowsM_of_gaps s h (fun j => by rw [hr j]; omega)
    · simp only [hn, if_false] at h hr
      by_cases hb : c = ' '
      · simp only [hb, if_true, show isBlank ' ' = true from rfl] at h hr
        exact rowsM_of_gaps s h hr
      · have hbl : isBlank c = false := by simp [isBlank, hb, hn]
        simp only [hb, hbl, if_false, Bool.false_eq_true] at h hr
        have h0 : r i = p + g := hr 0
        cases h with
        | cons h1 h2 =>
        refine ⟨?_, rowsM_of_gaps s h2 (fun j => ?_)⟩
        · rintro b rfl
          rw [h0, h1]
        · have := hr (j + 1)
          rw [show i + (j + 1) = i + 1 + j from by omega] at this
          rw [this, h0]
          rfl

theorem rowsM_append {r : Nat → Nat} (b : List (Option Nat)) : ∀ (a : List (Option Nat)) {i p : Nat},
    RowsM r i p (a ++ b) → RowsM r i p a ∧ RowsM r (i + a.length) (if a = [] then p else r (i + a.length - 1)) b
  | [], i, p, h => ⟨trivial, by simpa using h⟩
  | x :: a, i, p, h => by
    obtain ⟨h1, h2⟩ := h
    obtain ⟨h3, h4⟩ := rowsM_append b a h2
    refine ⟨⟨h1, h3⟩, ?_⟩
    rw [if_neg (by simp), List.length_cons]
    by_cases hc : a = []
    · simpa [hc] using h4
    · rw [if_neg hc] at h4
      rw [show i + (a.length + 1) = i + 1 + a.length from by omega]
      exact h4

theorem rowsM_same {r : Nat → Nat} : ∀ (n i : Nat), RowsM r (i + 1) (r i) (List.replicate n (some 0)) → r (i + n) = r i
  | 0, i, _ => rfl
  | n + 1, i, h => by
    obtain ⟨h1, h2⟩ := h
    have h1 := h1 0 rfl
    have := rowsM_same n (i + 1) h2
    rw [show i + (n + 1) = i + 1 + n from by omega, this, h1]
    rfl

/-! ### Contents -/

/-- The content without flags. -/
def bareX (k : Cont) : List (Sum Ch Comment) := k.map fun
  | .inl x => .inl x.2
  | .inr c => .inr c.2

@[simp] theorem bareX_append (a b : Cont) : bareX (a ++ b) = bareX a ++ bareX b := List.map_append
@[simp] theorem bareX_nil : bareX [] = [] := rfl

theorem marksX_same (ro : Comment → Role) : ∀ {a : List (Sum Ch Comment)} {k : Cont} (m : Option Nat), SameX a k →
    marksX ro m a = marksX ro m (bareX k)
  | [], [], _, _ => rfl
  | .inl x :: a, .inl (f, y) :: k, m, h => by
    obtain ⟨h1, h2⟩ := h
    rcases h1 with h1 | ⟨c, d, rfl, rfl, -⟩
    · subst h1
      cases x with
      | c x => exact congrArg (m :: ·) (marksX_same ro none h2)
      | sep b => exact marksX_same ro (some (base b + 1)) h2
    · exact congrArg (m :: ·) (marksX_same ro none h2)
  | .inr c :: a, .inr d :: k, m, h => by
    obtain ⟨rfl, h2⟩ := h
    exact congrArg (marksL m d.2 (ro d.2).lead ++ ·) (marksX_same ro _ h2)
  | [], _ :: _, _, h => by cases h
  | .inl _ :: _, [], _, h => by cases h
  | .inr _ :: _, [], _, h => by cases h
  | .inl _ :: _, .inr _ :: _, _, h => by cases h
  | .inr _ :: _, .inl _ :: _, _, h => by cases h

/-- The content of a node without its own comments. -/
def core (cm : CMap) (n : Node) : Cont :=
  match n.children with
  | [] => inlC ((letters false n.text).map (fun c => (!n.named || foldKinds.contains n.kind, c)))
  | cs => conts cm (bodyKinds.contains n.kind) cs

theorem cont_core (cm : CMap) {n : Node} (h : n.extra = false) : cont cm n =
    (if n.named || isAssociableUnnamedKind n.kind then bcom cm n.kind n.id else []) ++ core cm n ++
      (if n.named || isAssociableUnnamedKind n.kind then acom cm n.kind n.id else []) := by
  cases n with
  | mk id kind named extra err field sr er sb eb text children =>
    simp only at h
    subst h
    cases children <;> simp [cont, core, conts]

theorem cont_extra (cm : CMap) {n : Node} (h : n.extra = true) : cont cm n = [] := by
  cases n with
  | mk id kind named extra err field sr er sb eb text children =>
    simp only at h
    subst h
    cases children <;> simp [cont]

theorem bcom_bucket (cm : CMap) (kind : String) (id : Nat) :
    bcom cm kind id = comC (preHold kind) (bucketOf cm id).pre ++ comC .loose (bucketOf cm id).dangling := by
  unfold bcom bucketOf
  cases cm.get? id <;> simp [Bucket.empty, comC]

theorem acom_bucket (cm : CMap) (kind : String) (id : Nat) : acom cm kind id = comC (postHold kind) (bucketOf cm id).post := by
  unfold acom bucketOf
  cases cm.get? id <;> simp [Bucket.empty, comC]

theorem cont_quiet {cm : CMap} {n : Node} (h : n.extra = false) (hb : bucketOf cm n.id = .empty) : cont cm n = core cm n := by
  rw [cont_core cm h, bcom_bucket, acom_bucket, hb]
  simp [Bucket.empty, comC]

theorem cont_member {cm : CMap} {n : Node} (h : Mem n) {pre post : List Comment} (hb : bucketOf cm n.id = ⟨pre, post, []⟩) :
    cont cm n = comC (preHold n.kind) pre ++ core cm n ++ comC (postHold n.kind) post := by
  rw [cont_core cm h.2.1, bcom_bucket, acom_bucket, hb, h.1]
  simp [comC]

theorem bareX_comC (h : Hold) (cs : List Comment) : bareX (comC h cs) = cs.map .inr := by
  simp [bareX, comC, List.map_map, Function.comp_def]

/-! ### Marks of the nodes one after the other -/

section
variable (ro : Comment → Role) (cm : CMap)

/-- The marks of a node, `m` before its first character. -/
def piece (m : Option Nat) (c : Node) : List (Option Nat) :=
  if c.extra then m :: List.replicate (extent c - 1) (if m = some 0 then some 0 else none) else marksX ro m (bareX (core cm c))

/-- The mark after a node. -/
def gapAfter (body : Bool) (c : Node) : List Node → Option Nat
  | [] => none
  | x :: _ => if body && c.named && x.named then some (stepN c x) else none

/-- The marks of siblings. -/
def tm (body : Bool) : Option Nat → List Node → List (Option Nat)
  | _, [] => []
  | m, c :: cs => piece ro cm m c ++ tm body (gapAfter body c cs) cs

/-- What is known about the content of a node. -/
def CoreOk (c : Node) : Prop := (∃ t, (∀ m, m ≠ some 0 → marksX ro m (bareX (core cm c)) = m :: t) ∧ t.length + 1 = extent c) ∧
  ∀ m, endX ro m (bareX (core cm c)) = none
end

theorem extent_extra {c : Node} (h : c.extra = true) : extent c = ((drawn c).flatMap ink).length := by
  cases c with
  | mk id kind named extra err field sr er sb eb text children =>
    simp only at h
    subst h
    cases children <;> simp [extent]

theorem inkC_note (p x : Option Node) (c : Node) : inkC (noteOf p c x) = (drawn c).flatMap ink := by
  unfold inkC linesOf noteOf drawn
  dsimp only
  by_cases h : (c.kind == "line_comment") = true
  · rw [if_pos h, if_pos h]
  · rw [if_neg h, if_neg h]

theorem extent_note {c : Node} (h : Note c) : 0 < extent c := by
  rw [extent_extra h.extra, ← inkC_note none none c]
  obtain ⟨l, ls, h1, h2⟩ := (sound_note (p := none) (x := none) h).first
  unfold inkC
  rw [h1, List.flatMap_cons, List.length_append]
  have := List.length_pos_iff.2 h2
  omega

/-- The marks of a comment. -/
theorem marksL_note {p x : Option Node} {c : Node} (hc : Note c) {m g : Option Nat} {ld : Lead} (hg : match ld with
    | .none => g = m ∧ m ≠ some 0
    | .sep b => g = some (base b + 1)
    | .eol => g = some 0) (ro : Comment → Role) (cm : CMap) : marksL m (noteOf p c x) ld = piece ro cm g c := by
  unfold piece
  rw [if_pos hc.extra, extent_extra hc.extra, ← inkC_note p x c]
  have hpos : 0 < (inkC (noteOf p c x)).length := by
    rw [inkC_note, ← extent_extra hc.extra]; exact extent_note hc
  cases ld with
  | none => obtain ⟨rfl, h⟩ := hg; rw [marksL, if_neg h]
  | sep b => subst hg; rw [marksL, if_neg (by intro h; cases h)]
  | eol =>
    subst hg
    rw [marksL, if_pos rfl, ← List.replicate_succ]
    congr 1
    omega

/-! ### Steps -/

theorem step_above {q c : Node} (ha : atEnd q c = false) (h : q.endRow < c.startRow) :
    stepN q c = base (decide (c.startRow > q.endRow + 1)) + 1 := by
  unfold stepN blankBetween
  rw [ha, if_neg Bool.false_ne_true]
  have : (c.startRow == 0) = false := by rw [beq_eq_false_iff_ne]; omega
  rw [this, Bool.false_or]
  unfold base
  by_cases hd : q.endRow + 1 < c.startRow
  · rw [if_pos (decide_eq_true hd), if_pos (decide_eq_true hd)]
  · rw [if_neg (by simpa using hd), if_neg (by simpa using hd)]

theorem step_below {c x : Node} (hc : c.extra = true) (h : c.endRow < x.startRow) :
    stepN c x = base (decide (c.endRow < x.startRow - 1)) + 1 := by
  rw [step_above (by unfold atEnd; rw [hc]; simp) h]
  congr 2
  rw [decide_eq_decide]
  omega

theorem atEnd_extra {q c : Node} (h : q.extra = true) : atEnd q c = false := by unfold atEnd; rw [h]; simp

section
variable {ro : Comment → Role} {cm : CMap}

theorem gapAfter_named {c x : Node} {r : List Node} (hc : c.named = true) (hx : x.named = true) : gapAfter true c (x :: r) = some (stepN c x) := by
  simp [gapAfter, hc, hx]

theorem gapAfter_token {body : Bool} {c : Node} {r : List Node} (h : body = false ∨ c.named = false ∨ ∀ x ∈ r.head?, x.named = false) :
    gapAfter body c r = none := by
  cases r with
  | nil => rfl
  | cons x r =>
    unfold gapAfter
    rcases h with h | h | h
    · rw [h]; rfl
    · rw [h]; simp
    · simp [h x rfl]

/-- Comments before a member. -/
theorem pre_tm {x : Node} {rest : List Node} {R : List (Sum Ch Comment)} (hx : x.named = true)
    (hR : ∀ g, g ≠ some 0 → marksX ro g R = tm ro cm true g (x :: rest)) :
    ∀ (cs : List Node) (p : Option Node) (first : Bool) (m g : Option Nat), (∀ c ∈ cs, Note c) → PreRoles ro first (notesOf p cs (some x)) →
    apartRows (p.toList ++ (cs ++ [x])) = true → m ≠ some 0 → (cs = [] → g = m) → (first = true → g = m) →
    (first = false → ∀ c r, cs = c :: r → ∃ q, p = some q ∧ q.extra = true ∧ g = some (stepN q c)) →
    marksX ro m ((notesOf p cs (some x)).map .inr ++ R) = tm ro cm true g (cs ++ x :: rest)
  | [], p, first, m, g, _, _, _, h0, h1, _, _ => by
    rw [h1 rfl]
    exact hR m h0
  | c :: r, p, first, m, g, hn, hp, ha, h0, _, h2, h3 => by
    have hc := hn c List.mem_cons_self
    rw [notesOf, PreRoles] at hp
    obtain ⟨-, -, hld, htr, hp⟩ := hp
    rw [notesOf, List.map_cons, List.cons_append, marksX, List.cons_append, tm]
    have ha' : apartRows ((some c).toList ++ (r ++ [x])) = true := by
      cases p with
      | none => exact ha
      | some q => exact apart_tail ha
    congr 1
    · refine marksL_note hc ?_ ro cm
      rw [hld]
      cases first with
      | true => exact ⟨h2 rfl, h0⟩
      | false =>
        obtain ⟨q, rfl, hq, hg⟩ := h3 rfl c r rfl
        refine hg.trans (congrArg some ?_)
        rcases apart_head (r := r ++ [x]) ha (.inl hq) with h | h
        · rw [atEnd_extra hq] at h; cases h
        · exact step_above (atEnd_extra hq) h
    · rw [htr]
      cases r with
      | nil =>
        have hb : c.endRow < x.startRow := by
          rcases apart_head (r := []) ha' (.inl hc.extra) with h | h
          · rw [atEnd_extra hc.extra] at h; cases h
          · exact h
        rw [List.nil_append, gapAfter_named hc.named hx, step_below hc.extra hb]
        rw [notesOf, if_pos rfl]
        exact hR _ (by intro h; cases h)
      | cons d r =>
        have hd := hn d (by simp)
        rw [if_neg (by rw [notesOf]; simp)]
        rw [List.cons_append, gapAfter_named hc.named hd.named]
        refine pre_tm hx hR (d :: r) (some c) false none _ (fun y hy => hn y (List.mem_cons_of_mem _ hy)) hp ha' (by intro h; cases h) (fun h => nomatch h)
          (fun h => nomatch h) (fun _ c' r' e => ?_)
        cases e
        exact ⟨c, rfl, hc.extra, rfl⟩

/-- Comments after a member. -/
theorem post_tm {x : Option Node} {rest : List Node} {R : List (Sum Ch Comment)} :
    ∀ (cs : List Node) (q : Node) (m : Option Nat), (∀ c ∈ cs, Note c) → q.named = true → PostRoles ro (notesOf (some q) cs x) →
    apartRows (q :: cs) = true → (∀ z, lastN (some q) cs = some z → marksX ro none R = tm ro cm true (gapAfter true z rest) rest) →
    (m = none ∨ cs ≠ []) →
    marksX ro m ((notesOf (some q) cs x).map .inr ++ R) = tm ro cm true (gapAfter true q (cs ++ rest)) (cs ++ rest)
  | [], q, m, _, _, _, _, hR, hm => by
    obtain rfl : m = none := hm.resolve_right (fun h => h rfl)
    exact hR q rfl
  | c :: r, q, m, hn, hq, hp, ha, hR, _ => by
    have hc := hn c List.mem_cons_self
    rw [notesOf, PostRoles] at hp
    obtain ⟨-, htr, hld, hline, hp⟩ := hp
    rw [notesOf, List.map_cons, List.cons_append, marksX, List.cons_append, tm, gapAfter_named hq hc.named]
    congr 1
    · refine marksL_note hc ?_ ro cm
      rw [hld]
      cases hl : (noteOf (some q) c (r.head?.or x)).meta'.hasLeadingContent with
      | true =>
        rw [if_pos rfl]
        have hl' : (c.startRow == q.endRow) = true := hl
        rw [beq_iff_eq] at hl'
        rcases apart_head (r := r) ha (.inr hc.extra) with h | h
        · exact congrArg some (by unfold stepN; rw [if_pos h])
        · omega
      | false =>
        rw [if_neg Bool.false_ne_true]
        have hl' : (c.startRow == q.endRow) = false := hl
        rw [beq_eq_false_iff_ne] at hl'
        have he : atEnd q c = false := by
          cases h : atEnd q c with
          | false => rfl
          | true =>
            unfold atEnd at h
            simp only [Bool.and_eq_true, beq_iff_eq] at h
            exact absurd h.2 hl'
        rcases apart_head (r := r) ha (.inr hc.extra) with h | h
        · rw [he] at h; cases h
        · exact congrArg some (step_above he h)
    · rw [htr]
      exact post_tm r c none (fun y hy => hn y (List.mem_cons_of_mem _ hy)) hc.named hp (apart_tail ha) hR (.inl rfl)

theorem endX_pre {R : List (Sum Ch Comment)} (hR : ∀ m, endX ro m R = none) : ∀ (cs : List Comment) (m : Option Nat),
    endX ro m (cs.map .inr ++ R) = none
  | [], m => hR m
  | c :: cs, m => by rw [List.map_cons, List.cons_append, endX]; exact endX_pre hR cs _

theorem endX_post : ∀ (cs : List Comment), PostRoles ro cs → endX ro none (cs.map .inr) = none
  | [], _ => rfl
  | c :: cs, h => by
    rw [List.map_cons, endX, h.2.1]
    exact endX_post cs h.2.2.2.2

end

end Afmt.Notes
