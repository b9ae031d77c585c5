import Verif.Notes.Syms

/-!
# The required line breaks only depend on the content
-/

namespace Afmt.Notes
open Afmt.Gram
open Afmt.Lines (base)

/-- Visible characters of a comment. -/
def inkC (c : Comment) : Str := (linesOf c).flatMap ink

/-- The line breaks required before the characters of a comment. -/
def marksL (m : Option Nat) (c : Comment) : Lead → List (Option Nat)
  | .none => m :: List.replicate ((inkC c).length - 1) none
  | .sep b => some (base b + 1) :: List.replicate ((inkC c).length - 1) none
  | .eol => List.replicate (inkC c).length (some 0)

/-- The line breaks required before the characters of a content, `m` before the next one. -/
def marksX (ro : Comment → Role) (m : Option Nat) : List (Sum Ch Comment) → List (Option Nat)
  | [] => []
  | .inl (.c _) :: r => m :: marksX ro none r
  | .inl (.sep b) :: r => marksX ro (some (base b + 1)) r
  | .inr c :: r => marksL m c (ro c).lead ++ marksX ro ((ro c).trail.map (fun b => base b + 1)) r

/-- The line break after a content. -/
def endX (ro : Comment → Role) (m : Option Nat) : List (Sum Ch Comment) → Option Nat
  | [] => m
  | .inl (.c _) :: r => endX ro none r
  | .inl (.sep b) :: r => endX ro (some (base b + 1)) r
  | .inr c :: r => endX ro ((ro c).trail.map (fun b => base b + 1)) r

theorem marksX_append (ro : Comment → Role) (b : List (Sum Ch Comment)) : ∀ (a : List (Sum Ch Comment)) (m : Option Nat),
    marksX ro m (a ++ b) = marksX ro m a ++ marksX ro (endX ro m a) b
  | [], _ => rfl
  | .inl (.c x) :: a, m => by simp [marksX, endX, marksX_append ro b a]
  | .inl (.sep x) :: a, m => by simp [marksX, endX, marksX_append ro b a]
  | .inr c :: a, m => by simp [marksX, endX, marksX_append ro b a]

theorem endX_append (ro : Comment → Role) (b : List (Sum Ch Comment)) : ∀ (a : List (Sum Ch Comment)) (m : Option Nat),
    endX ro m (a ++ b) = endX ro (endX ro m a) b
  | [], _ => rfl
  | .inl (.c x) :: a, m => endX_append ro b a _
  | .inl (.sep x) :: a, m => endX_append ro b a _
  | .inr c :: a, m => endX_append ro b a _

/-- The marks of symbols and the line break after them. -/
def markE (m : Option Nat) : List Sym → Option Nat
  | [] => m
  | .txt s :: r => if ink s = [] then markE m r else markE none r
  | .flush :: r | .br _ :: r => markE m r
  | .sep b :: r => markE (some (base b + 1)) r
  | .eol _ :: r => markE none r

theorem marks_append (b : List Sym) : ∀ (a : List Sym) (m : Option Nat), marks m (a ++ b) = marks m a ++ marks (markE m a) b
  | [], _ => rfl
  | .txt s :: a, m => by
    simp only [List.cons_append, marks, markE]
    split
    · exact marks_append b a m
    · rw [marks_append b a none]; simp
  | .flush :: a, m => by simpa [marks, markE] using marks_append b a m
  | .br _ :: a, m => by simpa [marks, markE] using marks_append b a m
  | .sep x :: a, m => by simpa [marks, markE] using marks_append b a _
  | .eol s :: a, m => by simp only [List.cons_append, marks, markE]; rw [marks_append b a none]; simp

theorem markE_append (b : List Sym) : ∀ (a : List Sym) (m : Option Nat), markE m (a ++ b) = markE (markE m a) b
  | [], _ => rfl
  | .txt s :: a, m => by
    simp only [List.cons_append, markE]
    split
    · exact markE_append b a m
    · exact markE_append b a none
  | .flush :: a, m | .br _ :: a, m | .sep x :: a, m | .eol s :: a, m => by simpa [markE] using markE_append b a _

theorem markE_lines : ∀ (ls : List Str), markE none (lineSyms ls) = none
  | [] => rfl
  | [l] => by simp only [lineSyms, markE]; split <;> rfl
  | l :: l' :: ls => by simp only [lineSyms, markE]; split <;> exact markE_lines (l' :: ls)

theorem marks_lines : ∀ (ls : List Str), marks none (lineSyms ls) = List.replicate (ls.flatMap ink).length none
  | [] => rfl
  | [l] => by
    simp only [lineSyms, marks]
    split
    · rename_i h; simp [h]
    · rename_i h
      have : (ink l).length ≠ 0 := fun h' => h (List.length_eq_zero_iff.1 h')
      obtain ⟨k, hk⟩ : ∃ k, (ink l).length = k + 1 := ⟨_, (Nat.succ_pred this).symm⟩
      simp [hk, List.replicate_succ]
  | l :: l' :: ls => by
    have e : ((l :: l' :: ls).flatMap ink).length = (ink l).length + ((l' :: ls).flatMap ink).length := by
      rw [List.flatMap_cons, List.length_append]
    simp only [lineSyms, marks]
    rw [marks_lines (l' :: ls), e]
    split
    · rename_i h; simp [h]
    · rename_i h
      have : (ink l).length ≠ 0 := fun h' => h (List.length_eq_zero_iff.1 h')
      obtain ⟨k, hk⟩ : ∃ k, (ink l).length = k + 1 := ⟨_, (Nat.succ_pred this).symm⟩
      rw [hk, List.replicate_append_replicate, Nat.add_sub_cancel, Nat.add_right_comm, ← List.replicate_succ]

/-- The text of a comment has the marks of its characters. -/
theorem marks_text {c : Comment} (h : Sound c) (m : Option Nat) :
    marks m (textSyms c) = m :: List.replicate ((inkC c).length - 1) none ∧ markE m (textSyms c) = none := by
  obtain ⟨l, ls, h1, h2⟩ := h.first
  unfold textSyms inkC
  rw [h1]
  unfold linesOf at h1
  cases hc : c.type with
  | line =>
    rw [hc] at h1
    simp only [List.cons.injEq] at h1
    obtain ⟨rfl, rfl⟩ := h1
    simp [marks, markE, h2]
  | block =>
    rw [hc] at h1
    simp only at h1 ⊢
    rw [h1]
    have hl : (ink l).length ≠ 0 := fun h' => h2 (List.length_eq_zero_iff.1 h')
    cases ls with
    | nil => simp [lineSyms, marks, markE, h2]
    | cons l' ls =>
      simp only [lineSyms, marks, markE, h2, if_false]
      refine ⟨?_, markE_lines _⟩
      rw [marks_lines, List.replicate_append_replicate]
      have e : ((l :: l' :: ls).flatMap ink).length = (ink l).length + ((l' :: ls).flatMap ink).length := by
        rw [List.flatMap_cons, List.length_append]
      rw [e]
      congr 2
      omega

/-- A comment has the marks of its role. -/
theorem marks_com {c : Comment} (h : Sound c) (r : Role) (he : r.lead = .eol → c.type = .line) (m : Option Nat) :
    marks m (comSyms r c) = marksL m c r.lead ∧ markE m (comSyms r c) = r.trail.map (fun b => base b + 1) := by
  have key : ∀ (a : List Sym) (k : List (Option Nat)), marks m a = k ∧ markE m a = none →
      marks m (a ++ (match r.trail with | none => [] | some b => [.sep b])) = k ∧
      markE m (a ++ (match r.trail with | none => [] | some b => [.sep b])) = r.trail.map (fun b => base b + 1) := by
    intro a k ⟨h1, h2⟩
    rw [marks_append, markE_append, h1, h2]
    cases r.trail <;> simp [marks, markE]
  unfold comSyms
  cases hl : r.lead with
  | none => exact key _ _ (marks_text h m)
  | sep b => exact key _ _ (by simp only [marks, markE]; exact marks_text h _)
  | eol =>
    refine key _ _ ?_
    have : inkC c = ink c.value := by simp [inkC, linesOf, he hl]
    simp [marks, markE, marksL, this]

/-- Comments have the marks of their roles. -/
theorem marks_coms {ro : Comment → Role} : ∀ {cs : List Comment} (m : Option Nat),
    (∀ c ∈ cs, Sound c ∧ ((ro c).lead = .eol → c.type = .line)) →
    marks m (cs.flatMap (fun c => comSyms (ro c) c)) = marksX ro m (cs.map .inr) ∧
    markE m (cs.flatMap (fun c => comSyms (ro c) c)) = endX ro m (cs.map .inr)
  | [], _, _ => ⟨rfl, rfl⟩
  | c :: cs, m, h => by
    obtain ⟨h1, h2⟩ := marks_com (h c (by simp)).1 (ro c) (h c (by simp)).2 m
    obtain ⟨h3, h4⟩ := marks_coms (cs := cs) ((ro c).trail.map (fun b => base b + 1)) (fun d hd => h d (by simp [hd]))
    rw [List.flatMap_cons, marks_append, markE_append, h1, h2, h3, h4]
    exact ⟨rfl, rfl⟩

theorem marksX_text (ro : Comment → Role) (s : List Letter) (hs : s ≠ []) (m : Option Nat) :
    marksX ro m (s.map (fun x => .inl (.c x))) = m :: List.replicate (s.length - 1) none ∧
    endX ro m (s.map (fun x => .inl (.c x))) = none := by
  have h : ∀ (s : List Letter), marksX ro none (s.map (fun x => .inl (.c x))) = List.replicate s.length none ∧
      endX ro none (s.map (fun x => .inl (.c x))) = none := by
    intro s
    induction s with
    | nil => exact ⟨rfl, rfl⟩
    | cons c s ih => simp [marksX, endX, ih, List.replicate_succ]
  cases s with
  | nil => exact absurd rfl hs
  | cons c s => simp [marksX, endX, h]

/-- All comments of the map can be printed, and those at the end of a line are line comments. -/
def Sounds (ro : Comment → Role) (cm : CMap) : Prop :=
  ∀ id, ∀ c ∈ (bucketOf cm id).pre ++ (bucketOf cm id).post, Sound c ∧ ((ro c).lead = .eol → c.type = .line)

theorem marks_txt (ro : Comment → Role) (s : Str) (m : Option Nat) :
    marks m [.txt s] = marksX ro m (flatI ((codeItem s).map .inl)) ∧ markE m [.txt s] = endX ro m (flatI ((codeItem s).map .inl)) := by
  simp only [marks, markE, flatI_codeItem]
  split
  · rename_i h; rw [letters_nil h]; exact ⟨rfl, rfl⟩
  · rename_i h
    have hl : (letters false s).length = (ink s).length := by rw [← letters_ink s false, List.length_map]
    obtain ⟨h1, h2⟩ := marksX_text ro (letters false s) (fun h' => h (by rw [← letters_ink s false, h']; rfl)) m
    rw [h1, h2, hl]
    simp

mutual
/-- The marks of the symbols of a program are those of its content. -/
theorem marks_syms {ro : Comment → Role} {cm : CMap} (hs : Roles ro cm) (hc : Sounds ro cm) :
    ∀ (p : Prog) (is : List SItem) (l : List Comment), items cm p = .ok (is, l) → Sym.txt ['\n'] ∉ syms ro cm p → ∀ m,
    marks m (syms ro cm p) = marksX ro m (flatI is) ∧ markE m (syms ro cm p) = endX ro m (flatI is)
  | .txt s, is, l, h, _, m => by
    rw [items] at h; cases h
    exact marks_txt ro s m
  | .nl, is, l, h, _, m | .softline, is, l, h, _, m | .maybeline, is, l, h, _, m | .forceBreak, is, l, h, _, m => by
    rw [items] at h; cases h; exact ⟨rfl, rfl⟩
  | .sep b, is, l, h, _, m => by rw [items] at h; cases h; exact ⟨rfl, rfl⟩
  | .concat ps, is, l, h, hn, m => by rw [items] at h; rw [syms] at hn ⊢; exact marks_symss hs hc ps is l h hn m
  | .group p, is, l, h, hn, m => by
    rw [items] at h; rw [syms] at hn ⊢; rw [marks, markE]
    exact marks_syms hs hc p is l h (fun h => hn (.tail _ h)) m
  | .indent p, is, l, h, hn, m | .dedent p, is, l, h, hn, m => by
    rw [items] at h; rw [syms] at hn ⊢; exact marks_syms hs hc p is l h hn m
  | .pre id, is, l, h, _, m => by
    rw [items] at h
    cases hb : getBucket cm id with
    | error e => rw [hb] at h; cases h
    | ok b =>
      rw [hb] at h; cases h
      rw [flatI_commentItems, syms]
      have := fun c hx => hc id c (List.mem_append_left _ hx)
      rw [bucketOf_get hb] at *
      exact marks_coms m this
  | .post id, is, l, h, _, m => by
    rw [items] at h
    cases hb : getBucket cm id with
    | error e => rw [hb] at h; cases h
    | ok b =>
      rw [hb] at h; cases h
      rw [flatI_commentItems, syms]
      have := fun c hx => hc id c (List.mem_append_right _ hx)
      rw [bucketOf_get hb] at *
      exact marks_coms m this
  | .rootDangling id, is, l, h, _, m => by
    rw [items] at h
    cases hb : getBucket cm id with
    | error e => rw [hb] at h; cases h
    | ok b =>
      rw [hb] at h; cases h
      have := hs.dangling id
      rw [bucketOf_get hb] at this
      rw [this]; exact ⟨rfl, rfl⟩
  | .dangling id, is, l, h, _, m => by
    rw [items] at h
    cases hb : getBucket cm id with
    | error e => rw [hb] at h; cases h
    | ok b =>
      rw [hb] at h
      have := hs.dangling id
      rw [bucketOf_get hb] at this
      dsimp only at h
      rw [if_pos this] at h
      cases h
  | .punct p, is, l, h, hn, m => by
    rw [items] at h
    cases hb : getBucket cm p.id with
    | error e => rw [hb] at h; cases h
    | ok b =>
      rw [hb] at h; cases h
      rw [syms] at hn ⊢
      by_cases he : bucketOf cm p.id = Bucket.empty
      · rw [if_pos he]
        rw [bucketOf_get hb] at he
        subst he
        have := marks_txt ro p.text m
        simpa [Bucket.empty, commentItems] using this
      · rw [if_neg he] at hn
        exact absurd (.head _) hn
  | .ifDangling id p q, is, l, h, hn, m => by
    rw [items] at h
    cases hb : getBucket cm id with
    | error e => rw [hb] at h; cases h
    | ok b =>
      rw [hb] at h
      have := hs.dangling id
      rw [bucketOf_get hb] at this
      dsimp only at h
      rw [if_neg (by simp [this])] at h
      rw [syms] at hn ⊢; exact marks_syms hs hc q is l h hn m
  | .fail e, is, l, h, _, m => by rw [items] at h; cases h
theorem marks_symss {ro : Comment → Role} {cm : CMap} (hs : Roles ro cm) (hc : Sounds ro cm) :
    ∀ (ps : List Prog) (is : List SItem) (l : List Comment), itemss cm ps = .ok (is, l) → Sym.txt ['\n'] ∉ symss ro cm ps → ∀ m,
    marks m (symss ro cm ps) = marksX ro m (flatI is) ∧ markE m (symss ro cm ps) = endX ro m (flatI is)
  | [], is, l, h, _, m => by rw [itemss] at h; cases h; exact ⟨rfl, rfl⟩
  | p :: ps, is, l, h, hn, m => by
    rw [itemss] at h
    rw [symss, List.mem_append] at hn
    cases h1 : items cm p with
    | error e => rw [h1] at h; cases h
    | ok a =>
      rw [h1] at h
      cases h2 : itemss cm ps with
      | error e => rw [h2] at h; cases h
      | ok b =>
        rw [h2] at h; cases h
        obtain ⟨q1, q2⟩ := marks_syms hs hc p a.1 a.2 h1 (fun h => hn (.inl h)) m
        obtain ⟨q3, q4⟩ := marks_symss hs hc ps b.1 b.2 h2 (fun h => hn (.inr h)) (markE m (syms ro cm p))
        rw [symss, marks_append, markE_append, flatI_append, marksX_append, endX_append, q1, q3, q4, q2]
        exact ⟨rfl, rfl⟩
end

end Afmt.Notes
