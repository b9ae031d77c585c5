import Verif.Levels.Text
import Verif.Notes.Lined

/-!
# Events of programs and events of trees

The events of a program simulate those of a tree: they have the same number of visible characters, and wherever the tree
requires the start of a line the program has a hard line break with that indentation.
-/

namespace Afmt.Levels
open Afmt.Notes (Br Lead Role Roles PreRoles PostRoles Sym bucketOf bucketOf_get comSyms textSyms lineSyms linesOf inkC Sounds
  Sound Inky KidsB core CoreOk core_ok marksX bareX cont_core marksL)
open Gram

/-- Number of visible characters of the code. -/
def cntC (e : List Ev) : Nat := e.countP (· == .chr)

/-- Number of visible characters of comments. -/
def cntN (e : List Ev) : Nat := e.countP (· == .note)

theorem cntC_append (a b : List Ev) : cntC (a ++ b) = cntC a + cntC b := List.countP_append
theorem cntN_append (a b : List Ev) : cntN (a ++ b) = cntN a + cntN b := List.countP_append

theorem cntC_chrs (n : Nat) : cntC (List.replicate n .chr) = n := by simp [cntC, List.countP_replicate]
theorem cntN_chrs (n : Nat) : cntN (List.replicate n .chr) = 0 := by simp [cntN, List.countP_replicate]
theorem cntC_notes (n : Nat) : cntC (List.replicate n .note) = 0 := by simp [cntC, List.countP_replicate]
theorem cntN_notes (n : Nat) : cntN (List.replicate n .note) = n := by simp [cntN, List.countP_replicate]

theorem wanted_length (e : List Ev) : ∀ m, (wanted m e).length = cntC e + cntN e := by
  induction e with
  | nil => intro m; rfl
  | cons x e ih =>
    intro m
    cases x with
    | chr => rw [wanted, List.length_cons, ih]; simp [cntC, cntN]; omega
    | note => rw [wanted, List.length_cons, ih]; simp [cntC, cntN]; omega
    | line i => rw [wanted, ih]; simp [cntC, cntN]
    | shift i => rw [wanted, ih]; simp [cntC, cntN]
    | gap => rw [wanted, ih]; simp [cntC, cntN]

theorem Meets.length {a b : List (Option Nat)} (h : Meets a b) : a.length = b.length := by
  induction h with
  | nil => rfl
  | cons _ _ ih => simp [ih]

theorem Meets.refl : ∀ (a : List (Option Nat)), Meets a a
  | [] => .nil
  | _ :: a => .cons (Or.inr rfl) (Meets.refl a)

/-- The events of a program simulate those of a tree if nothing is required of the first character. -/
def Sim (e t : List Ev) : Prop := (∀ m, Meets (wanted m e) (wanted none t)) ∧ fin none t = none ∧ cntC e = cntC t

theorem Sim.cntC {e t : List Ev} (h : Sim e t) : cntC e = cntC t := h.2.2

theorem Sim.cntN {e t : List Ev} (h : Sim e t) : cntN e = cntN t := by
  have := (h.1 none).length
  rw [wanted_length, wanted_length, h.2.2] at this
  omega

theorem sim_nil : Sim [] [] := ⟨fun _ => .nil, rfl, rfl⟩

theorem Sim.append {a b a' b' : List Ev} (h : Sim a a') (h' : Sim b b') : Sim (a ++ b) (a' ++ b') := by
  refine ⟨fun m => ?_, ?_, ?_⟩
  · rw [wanted_append, wanted_append, h.2.1]
    exact (h.1 m).append (h'.1 _)
  · rw [fin_append, h.2.1, h'.2.1]
  · rw [cntC_append, cntC_append, h.2.2, h'.2.2]

/-- Nothing is required inside of the tree. -/
theorem sim_flat {e : List Ev} {n : Nat} (h : cntC e = n) (hn : cntN e = 0) : Sim e (List.replicate n .chr) := by
  refine ⟨fun m => ?_, fin_none n, by rw [h, cntC_chrs]⟩
  rw [wanted_none]
  exact .free (by rw [wanted_length, h, hn]; rfl)

/-- White space. -/
theorem sim_skip {e a t : List Ev} (h : cntC e = 0) (hn : cntN e = 0) (h' : Sim a t) : Sim (e ++ a) t :=
  Sim.append (b' := t) (sim_flat h hn) h'

theorem Sim.skip {e t a : List Ev} (h' : Sim e t) (h : Levels.cntC a = 0) (hn : Levels.cntN a = 0) : Sim (e ++ a) t := by
  have := h'.append (sim_flat h hn)
  rwa [List.replicate_zero, List.append_nil] at this

/-- The events are empty or begin with a visible character. -/
def Starts (e : List Ev) : Prop := e = [] ∨ (∃ r, e = .chr :: r) ∨ ∃ r, e = .shift 0 :: .note :: r

/-- A line break. -/
theorem sim_line {e t : List Ev} (h : Sim e t) (hs : Starts e) (ht : t ≠ []) (hx : ∀ n r, t ≠ .shift n :: r) (i : Nat) :
    Sim (.line i :: e) (.line i :: t) := by
  obtain ⟨h1, h2, h3⟩ := h
  refine ⟨fun m => ?_, ?_, ?_⟩
  · show Meets (wanted (some i) e) (wanted (some i) t)
    have h1 := h1 (some i)
    cases t with
    | nil => exact absurd rfl ht
    | cons x t =>
      cases x with
      | line j => exact h1
      | gap => exact h1
      | shift n => exact absurd rfl (hx n t)
      | chr | note =>
        rcases hs with rfl | ⟨r, rfl⟩ | ⟨r, rfl⟩
        · cases h1
        · cases h1 with
          | cons _ hr => exact .cons (Or.inr rfl) hr
        · cases h1 with
          | cons _ hr => exact .cons (Or.inr rfl) hr
  · show fin (some i) t = none
    cases t with
    | nil => exact absurd rfl ht
    | cons x t =>
      cases x with
      | shift n => exact absurd rfl (hx n t)
      | _ => exact h2
  · simpa [Levels.cntC] using h3

/-- The part before: its number of characters follows from that of the whole. -/
theorem sim_tail {a b b' : List Ev} {n : Nat} (h : Sim b b') (hc : cntC (a ++ b) = n + cntC b') (hn : cntN a = 0) :
    Sim (a ++ b) (List.replicate n .chr ++ b') := by
  refine (sim_flat ?_ hn).append h
  rw [cntC_append, h.cntC] at hc
  omega

/-- A weaker requirement at the start. -/
theorem wanted_weaken (e : List Ev) : ∀ m, Meets (wanted m e) (wanted none e) := by
  induction e with
  | nil => intro m; exact .nil
  | cons x e ih =>
    intro m
    cases x with
    | chr | note => exact .cons (Or.inl rfl) (.refl _)
    | line i => exact .refl _
    | shift n => exact ih _
    | gap => exact .refl _

theorem sim_self {e : List Ev} (h : fin none e = none) : Sim e e := ⟨fun m => wanted_weaken e m, h, rfl⟩

/-! ### Counting -/

theorem cntC_evT (s : Str) : cntC (evT s) = (ink s).length := by
  rw [evT, cntC_append, cntC_chrs]
  split
  · rw [show cntC [Ev.gap] = 0 from rfl, Nat.zero_add]
  · rw [show cntC [] = 0 from rfl, Nat.zero_add]

theorem cntN_evT (s : Str) : cntN (evT s) = 0 := by
  rw [evT, cntN_append, cntN_chrs]
  split <;> rfl

theorem cnt_written (s : Str) : cntC (written s) = 0 ∧ cntN (written s) = (ink s).length := by
  unfold written
  split
  · rename_i h
    rw [List.isEmpty_iff] at h
    rw [h]
    exact ⟨rfl, rfl⟩
  · refine ⟨?_, ?_⟩
    · have := cntC_notes (ink s).length
      simpa [cntC] using this
    · have := cntN_notes (ink s).length
      simpa [cntN] using this

theorem cnt_note (s : Str) : cntC (evS (.note s)) = 0 ∧ cntN (evS (.note s)) = (ink s).length := by
  simp only [evS]
  split
  · refine ⟨?_, ?_⟩
    · have := cntC_notes (ink s).length
      simpa [cntC] using this
    · have := cntN_notes (ink s).length
      simpa [cntN] using this
  · exact cnt_written s

theorem cnt_eol (s : Str) : cntC (evS (.eol s)) = 0 ∧ cntN (evS (.eol s)) = (ink s).length := by
  simp only [evS]
  refine ⟨?_, ?_⟩
  · have := cntC_notes (ink s).length
    simpa [cntC] using this
  · have := cntN_notes (ink s).length
    simpa [cntN] using this

theorem cnt_lines (i : Nat) : ∀ ls : List Str, cntC ((lineMks i ls).flatMap evS) = 0 ∧
    cntN ((lineMks i ls).flatMap evS) = (ls.flatMap ink).length
  | [] => ⟨rfl, rfl⟩
  | [l] => by
    have := cnt_note l
    simpa [lineMks] using this
  | l :: l' :: ls => by
    obtain ⟨h1, h2⟩ := cnt_lines i (l' :: ls)
    obtain ⟨h3, h4⟩ := cnt_note l
    have e : lineMks i (l :: l' :: ls) = .note l :: .line .cut i :: lineMks i (l' :: ls) := rfl
    rw [e, List.flatMap_cons, List.flatMap_cons, cntC_append, cntC_append, cntN_append, cntN_append, h1, h2, h3, h4,
      List.flatMap_cons, List.length_append]
    refine ⟨by simp [evS, cntC], by simp [evS, cntN]⟩

theorem cnt_text (i : Nat) (c : Comment) : cntC ((textMks i c).flatMap evS) = 0 ∧
    cntN ((textMks i c).flatMap evS) = (inkC c).length := by
  unfold textMks inkC linesOf
  cases c.type with
  | line =>
    obtain ⟨h3, h4⟩ := cnt_note c.value
    simp only [List.flatMap_cons, List.flatMap_nil, List.append_nil, cntC_append, cntN_append, h3, h4]
    refine ⟨by simp [evS, cntC], by simp [evS, cntN]⟩
  | block => exact cnt_lines i _

theorem cnt_com (i : Nat) (r : Role) (c : Comment) (h : r.lead = .eol → c.type = .line) :
    cntC ((comMks i r c).flatMap evS) = 0 ∧ cntN ((comMks i r c).flatMap evS) = (inkC c).length := by
  obtain ⟨h1, h2⟩ := cnt_text i c
  have ht : ∀ o : Option Bool, cntC ((match o with | none => [] | some b => [Mk.sep b i]).flatMap evS) = 0 ∧
      cntN ((match o with | none => [] | some b => [Mk.sep b i]).flatMap evS) = 0 := by
    intro o; cases o <;> exact ⟨rfl, rfl⟩
  unfold comMks
  rw [List.flatMap_append, cntC_append, cntN_append]
  have h5 := (ht r.trail).1
  have h6 := (ht r.trail).2
  revert h5 h6
  generalize (List.flatMap evS (match r.trail with | none => [] | some b => [Mk.sep b i])) = T
  intro h5 h6
  rw [h5, h6, Nat.add_zero, Nat.add_zero]
  cases hl : r.lead with
  | none => exact ⟨h1, h2⟩
  | sep b =>
    simp only [List.flatMap_cons, cntC_append, cntN_append, h1, h2]
    refine ⟨by simp [evS, cntC], by simp [evS, cntN]⟩
  | eol =>
    obtain ⟨h3, h4⟩ := cnt_eol c.value
    have e : (inkC c) = ink c.value := by simp [inkC, linesOf, h hl]
    rw [e]
    simp only [List.flatMap_cons, List.flatMap_nil, List.append_nil, cntC_append, cntN_append, h3, h4]
    refine ⟨by simp [evS, cntC], by simp [evS, cntN]⟩

/-- Number of visible characters of comments. -/
def noteN (cs : List Comment) : Nat := (cs.flatMap inkC).length

theorem noteN_append (a b : List Comment) : noteN (a ++ b) = noteN a + noteN b := by
  simp only [noteN, List.flatMap_append, List.length_append]

theorem noteN_within {a b : List Comment} (h : Within a b) : noteN a ≤ noteN b := by
  obtain ⟨x, hp⟩ := h
  have : noteN b = noteN (a ++ x) := (hp.flatMap_right inkC).length_eq
  rw [this, noteN_append]
  omega

theorem cnt_coms {ro : Comment → Role} (i : Nat) : ∀ {cs : List Comment}, (∀ c ∈ cs, (ro c).lead = .eol → c.type = .line) →
    cntC ((cs.flatMap (fun c => comMks i (ro c) c)).flatMap evS) = 0 ∧
    cntN ((cs.flatMap (fun c => comMks i (ro c) c)).flatMap evS) = noteN cs
  | [], _ => ⟨rfl, rfl⟩
  | c :: cs, h => by
    obtain ⟨h1, h2⟩ := cnt_com i (ro c) c (h c (by simp))
    obtain ⟨h3, h4⟩ := cnt_coms i (cs := cs) (fun d hd => h d (by simp [hd]))
    rw [List.flatMap_cons, List.flatMap_append, cntC_append, cntN_append, h1, h2, h3, h4]
    exact ⟨rfl, by simp only [noteN, List.flatMap_cons, List.length_append]⟩

theorem eol_pre {ro : Comment → Role} : ∀ {cs : List Comment} {b : Bool}, PreRoles ro b cs → ∀ c ∈ cs, (ro c).lead = .eol → c.type = .line
  | [], _, _, _, h => by cases h
  | d :: cs, b, ⟨_, _, h1, _, h2⟩, c, h => by
    rcases List.mem_cons.mp h with rfl | h
    · intro e
      rw [h1] at e
      split at e <;> cases e
    · exact eol_pre h2 c h

theorem eol_post {ro : Comment → Role} : ∀ {cs : List Comment}, PostRoles ro cs → ∀ c ∈ cs, (ro c).lead = .eol → c.type = .line
  | [], _, _, h => by cases h
  | d :: cs, ⟨_, _, h1, h3, h2⟩, c, h => by
    rcases List.mem_cons.mp h with rfl | h
    · intro e
      rw [h1] at e
      split at e
      · rename_i hl; exact h3 hl
      · cases e
    · exact eol_post h2 c h

theorem cnt_pre {ro : Comment → Role} {cm : CMap} (hs : Roles ro cm) (k i id : Nat) :
    cntC (ev ro cm k i (.pre id)) = 0 ∧ cntN (ev ro cm k i (.pre id)) = noteN (bucketOf cm id).pre := by
  rw [ev, marked]
  exact cnt_coms i (eol_pre (hs.pre id))

theorem cnt_post {ro : Comment → Role} {cm : CMap} (hs : Roles ro cm) (k i id : Nat) :
    cntC (ev ro cm k i (.post id)) = 0 ∧ cntN (ev ro cm k i (.post id)) = noteN (bucketOf cm id).post := by
  rw [ev, marked]
  exact cnt_coms i (eol_post (hs.post id))

theorem letsOf_append (a b : List Ch) : letsOf (a ++ b) = letsOf a ++ letsOf b := List.filterMap_append

theorem letsOf_c (l : List Letter) : letsOf (l.map .c) = l := by
  induction l with
  | nil => rfl
  | cons x l ih =>
    rw [List.map_cons, letsOf, List.filterMap_cons]
    exact congrArg (x :: ·) ih

/-- Number of characters of the code among items. -/
def codeN (is : List SItem) : Nat := (letsOf (inks is)).length

/-- Comments among items. -/
def itemComs (is : List SItem) : List Comment := commentsOf (plainItems is)

theorem codeN_append (a b : List SItem) : codeN (a ++ b) = codeN a + codeN b := by
  rw [codeN, inks_append, letsOf_append, List.length_append]; rfl

theorem itemComs_append (a b : List SItem) : itemComs (a ++ b) = itemComs a ++ itemComs b := by
  simp only [itemComs, commentsOf, plainItems, List.filterMap_append]

theorem codeN_code (s : Str) : codeN ((codeItem s).map .inl) = (ink s).length := by
  unfold codeItem
  split
  · rename_i h; rw [h]; rfl
  · rw [codeN]
    simp only [List.map_cons, List.map_nil, inks, List.flatMap_cons, List.flatMap_nil, List.append_nil, inkItem]
    rw [letsOf_c, ← letters_ink s false, List.length_map]

theorem itemComs_code (s : Str) : itemComs ((codeItem s).map .inl) = [] := by
  unfold codeItem
  split <;> rfl

theorem codeN_coms (cs : List Comment) : codeN ((commentItems cs).map .inl) = 0 := by
  induction cs with
  | nil => rfl
  | cons c cs ih => exact ih

theorem itemComs_coms (cs : List Comment) : itemComs ((commentItems cs).map .inl) = cs := by
  induction cs with
  | nil => rfl
  | cons c cs ih => exact congrArg (c :: ·) ih

mutual
theorem cnt_items {ro : Comment → Role} {cm : CMap} (hs : Roles ro cm) (k : Nat) :
    ∀ (p : Prog) (is : List SItem) (l : List Comment), items cm p = .ok (is, l) → ∀ i,
    cntC (ev ro cm k i p) = codeN is ∧ cntN (ev ro cm k i p) ≤ noteN (itemComs is)
  | .txt s, is, l, h, i => by
    rw [items] at h; cases h
    rw [codeN_code, itemComs_code]
    simp only [ev, marked, List.flatMap_cons, List.flatMap_nil, List.append_nil, evS, cntC_evT, cntN_evT]
    exact ⟨trivial, Nat.zero_le _⟩
  | .nl, is, l, h, i | .softline, is, l, h, i | .maybeline, is, l, h, i | .forceBreak, is, l, h, i => by
    rw [items] at h; cases h; exact ⟨by rw [ev, marked]; rfl, by rw [ev, marked]; exact Nat.zero_le _⟩
  | .sep b, is, l, h, i => by
    rw [items] at h; cases h; exact ⟨by rw [ev, marked]; rfl, by rw [ev, marked]; exact Nat.zero_le _⟩
  | .concat ps, is, l, h, i => by rw [items] at h; rw [ev, marked]; exact cnt_itemss hs k ps is l h i
  | .group p, is, l, h, i => by
    rw [items] at h; rw [ev, marked]; exact cnt_items hs k p is l h i
  | .indent p, is, l, h, i | .dedent p, is, l, h, i => by
    rw [items] at h; rw [ev, marked]; exact cnt_items hs k p is l h _
  | .pre id, is, l, h, i => by
    rw [items] at h
    cases hb : getBucket cm id with
    | error e => rw [hb] at h; cases h
    | ok b =>
      rw [hb] at h; cases h
      obtain ⟨h1, h2⟩ := cnt_pre hs k i id
      rw [h1, h2, bucketOf_get hb, codeN_coms, itemComs_coms]
      exact ⟨rfl, Nat.le_refl _⟩
  | .post id, is, l, h, i => by
    rw [items] at h
    cases hb : getBucket cm id with
    | error e => rw [hb] at h; cases h
    | ok b =>
      rw [hb] at h; cases h
      obtain ⟨h1, h2⟩ := cnt_post hs k i id
      rw [h1, h2, bucketOf_get hb, codeN_coms, itemComs_coms]
      exact ⟨rfl, Nat.le_refl _⟩
  | .rootDangling id, is, l, h, i => by
    rw [items] at h
    cases hb : getBucket cm id with
    | error e => rw [hb] at h; cases h
    | ok b =>
      rw [hb] at h; cases h
      refine ⟨?_, by rw [ev, marked]; exact Nat.zero_le _⟩
      rw [codeN_coms, ev, marked]
      rfl
  | .dangling id, is, l, h, i => by
    rw [items] at h
    cases hb : getBucket cm id with
    | error e => rw [hb] at h; cases h
    | ok b =>
      rw [hb] at h
      have := hs.dangling id
      rw [bucketOf_get hb] at this
      dsimp only at h
      rw [if_pos this] at h
      cases h
  | .punct p, is, l, h, i => by
    rw [items] at h
    cases hb : getBucket cm p.id with
    | error e => rw [hb] at h; cases h
    | ok b =>
      rw [hb] at h; cases h
      simp only [ev, marked, List.flatMap_cons, List.flatMap_nil, List.append_nil, evS, cntC_evT, cntN_evT, List.map_append]
      rw [codeN_append, codeN_append, codeN_coms, codeN_coms, codeN_code]
      exact ⟨by omega, Nat.zero_le _⟩
  | .ifDangling id p q, is, l, h, i => by
    rw [items] at h
    cases hb : getBucket cm id with
    | error e => rw [hb] at h; cases h
    | ok b =>
      rw [hb] at h
      have := hs.dangling id
      rw [bucketOf_get hb] at this
      dsimp only at h
      rw [if_neg (by simp [this])] at h
      rw [ev, marked]; exact cnt_items hs k q is l h i
  | .fail e, is, l, h, i => by rw [items] at h; cases h
theorem cnt_itemss {ro : Comment → Role} {cm : CMap} (hs : Roles ro cm) (k : Nat) :
    ∀ (ps : List Prog) (is : List SItem) (l : List Comment), itemss cm ps = .ok (is, l) → ∀ i,
    cntC (evs ro cm k i ps) = codeN is ∧ cntN (evs ro cm k i ps) ≤ noteN (itemComs is)
  | [], is, l, h, i => by rw [itemss] at h; cases h; exact ⟨rfl, Nat.le_refl _⟩
  | p :: ps, is, l, h, i => by
    rw [itemss] at h
    cases h1 : items cm p with
    | error e => rw [h1] at h; cases h
    | ok a =>
      rw [h1] at h
      cases h2 : itemss cm ps with
      | error e => rw [h2] at h; cases h
      | ok b =>
        rw [h2] at h; cases h
        obtain ⟨q1, q2⟩ := cnt_items hs k p a.1 a.2 h1 i
        obtain ⟨q3, q4⟩ := cnt_itemss hs k ps b.1 b.2 h2 i
        rw [evs, markeds, List.flatMap_append, cntC_append, cntN_append, codeN_append, itemComs_append, noteN_append]
        rw [ev] at q1 q2
        rw [evs] at q3 q4
        omega
end

theorem same_length : ∀ {s : List Letter} {k : List (Bool × Letter)}, SameL s k → s.length = k.length
  | [], [], _ => rfl
  | _ :: s, _ :: k, h => congrArg (· + 1) (same_length (s := s) (k := k) h.2)

/-- The program of some content has as many characters. -/
theorem sx_cnt {ro : Comment → Role} {cm : CMap} (hs : Roles ro cm) {p : Prog} {c : Cont} (h : Sx (items cm p) c) (k i : Nat) :
    cntC (ev ro cm k i p) = (lets (codeC c)).length ∧ cntN (ev ro cm k i p) ≤ noteN (coms c) := by
  obtain ⟨is, log, e, h1, h2⟩ := h.parts
  obtain ⟨q1, q2⟩ := cnt_items hs k p is log e i
  exact ⟨q1.trans (same_length h1.lets), Nat.le_trans q2 (noteN_within h2)⟩

theorem sxs_cnt {ro : Comment → Role} {cm : CMap} (hs : Roles ro cm) {ps : List Prog} {c : Cont} (h : Sx (itemss cm ps) c) (k i : Nat) :
    cntC (evs ro cm k i ps) = (lets (codeC c)).length ∧ cntN (evs ro cm k i ps) ≤ noteN (coms c) := by
  obtain ⟨is, log, e, h1, h2⟩ := h.parts
  obtain ⟨q1, q2⟩ := cnt_itemss hs k ps is log e i
  exact ⟨q1.trans (same_length h1.lets), Nat.le_trans q2 (noteN_within h2)⟩

theorem cnt_opening (k i : Nat) (l : Lay) (p : Option Node) (c : Node) :
    cntC (opening k i l p c) = 0 ∧ cntN (opening k i l p c) = 0 := by
  unfold opening start
  split
  · exact ⟨rfl, rfl⟩
  · split <;> exact ⟨rfl, rfl⟩

theorem cnt_remark (i : Nat) : ∀ ls : List Str, cntC (remark i ls) = 0 ∧ cntN (remark i ls) = (ls.flatMap ink).length
  | [] => ⟨rfl, rfl⟩
  | [l] => by
    have := cnt_written l
    simpa [remark] using this
  | l :: l' :: ls => by
    obtain ⟨h1, h2⟩ := cnt_remark i (l' :: ls)
    obtain ⟨h3, h4⟩ := cnt_written l
    have e : remark i (l :: l' :: ls) = written l ++ ([.line i] ++ remark i (l' :: ls)) := rfl
    rw [e, cntC_append, cntC_append, cntN_append, cntN_append, h1, h2, h3, h4, List.flatMap_cons, List.length_append]
    refine ⟨by simp [cntC], by simp [cntN]⟩

mutual
theorem cnt_nested (k : Nat) : ∀ (n : Node) (i : Nat), cntC (nested k i n) = (lex n).length ∧
    cntC (nested k i n) + cntN (nested k i n) = extent n
  | .mk id kind named extra err field sr er sb eb text children, i => by
    cases extra with
    | true =>
      obtain ⟨h1, h2⟩ := cnt_remark i (drawn (.mk id kind named true err field sr er sb eb text children))
      rw [nested, extent.eq_def, lex.eq_def]
      simp only [if_true, h1, h2]
      exact ⟨by cases children <;> rfl, by omega⟩
    | false =>
      cases children with
      | nil =>
        rw [nested, extent, lex.eq_def]
        simp only [Bool.false_eq_true, if_false, List.isEmpty_nil, if_true]
        rw [cntC_chrs, cntN_chrs]
        refine ⟨?_, by omega⟩
        rw [List.length_map, ← letters_ink text false, List.length_map]
      | cons c cs =>
        obtain ⟨h1, h2⟩ := cnt_nested k c (place k i (lay kind (c :: cs)) c).2
        obtain ⟨h3, h4⟩ := cnt_nesteds k cs i (lay kind (c :: cs)) (if c.named then some c else none)
        obtain ⟨h5, h6⟩ := cnt_opening k i (lay kind (c :: cs)) none c
        rw [nested, extent, lex.eq_def]
        simp only [Bool.false_eq_true, if_false, List.isEmpty_cons, nesteds, cntC_append, cntN_append, List.length_append]
        refine ⟨?_, ?_⟩ <;> omega
theorem cnt_nesteds (k : Nat) : ∀ (ns : List Node) (i : Nat) (l : Lay) (p : Option Node),
    cntC (nesteds k i l p ns) = (lexs ns).length ∧
    cntC (nesteds k i l p ns) + cntN (nesteds k i l p ns) = extents ns
  | [], i, l, p => ⟨rfl, rfl⟩
  | c :: cs, i, l, p => by
    obtain ⟨h1, h2⟩ := cnt_nested k c (place k i l c).2
    obtain ⟨h3, h4⟩ := cnt_nesteds k cs i l (if c.named then some c else p)
    obtain ⟨h5, h6⟩ := cnt_opening k i l p c
    simp only [nesteds, lexs, extents, cntC_append, cntN_append, List.length_append]
    refine ⟨?_, ?_⟩ <;> omega
end

/-- The content of a node without its own comments has at most as many characters of comments as the tree. -/
theorem marksX_length (ro : Comment → Role) : ∀ (c : Cont) (m : Option Nat),
    (lets (codeC c)).length + noteN (coms c) ≤ (marksX ro m (bareX c)).length
  | [], _ => Nat.le_refl _
  | .inl (b, .c x) :: c, m => by
    have := marksX_length ro c none
    show (lets (codeC c)).length + 1 + noteN (coms c) ≤ (marksX ro none (bareX c)).length + 1
    omega
  | .inl (b, .sep x) :: c, m => marksX_length ro c _
  | .inr (b, x) :: c, m => by
    have h := marksX_length ro c ((ro x).trail.map (fun b => Lines.base b + 1))
    have hl : (inkC x).length ≤ (marksL m x (ro x).lead).length := by
      cases (ro x).lead <;> simp [marksL] <;> omega
    have e : marksX ro m (bareX (.inr (b, x) :: c)) = marksL m x (ro x).lead ++
      marksX ro ((ro x).trail.map (fun b => Lines.base b + 1)) (bareX c) := rfl
    have e' : noteN (coms (.inr (b, x) :: c)) = (inkC x).length + noteN (coms c) := by
      rw [← show noteN [x] = (inkC x).length from by simp [noteN], ← noteN_append]; rfl
    have e'' : lets (codeC (.inr (b, x) :: c)) = lets (codeC c) := rfl
    rw [e, e', e'', List.length_append]
    omega

/-! ### Programs -/

section
variable {ro : Comment → Role} {cm : CMap}
theorem ev_txt (k i : Nat) (s : Str) : ev ro cm k i (.txt s) = evT s := by simp [ev, marked, evS]
theorem ev_punct (k i : Nat) (p : Punc) : ev ro cm k i (.punct p) = evT p.text := by simp [ev, marked, evS]
theorem ev_nl (k i : Nat) : ev ro cm k i .nl = [.line i] := by simp [ev, marked, evS]
theorem ev_sep (k i : Nat) (b : Bool) : ev ro cm k i (.sep b) = [.line i] := by simp [ev, marked, evS]
theorem ev_concat (k i : Nat) (ps : List Prog) : ev ro cm k i (.concat ps) = evs ro cm k i ps := by simp [ev, evs, marked]
theorem ev_group (k i : Nat) (p : Prog) : ev ro cm k i (.group p) = ev ro cm k i p := by simp [ev, marked, evS]
theorem ev_indent (k i : Nat) (p : Prog) : ev ro cm k i (.indent p) = ev ro cm k (i + k) p := by simp [ev, marked]
theorem ev_ifDangling (k i : Nat) (id : Nat) (p q : Prog) : ev ro cm k i (.ifDangling id p q) = ev ro cm k i q := by simp [ev, marked]
theorem evs_nil (k i : Nat) : evs ro cm k i [] = [] := by simp [evs, markeds]
theorem evs_cons (k i : Nat) (p : Prog) (ps : List Prog) : evs ro cm k i (p :: ps) = ev ro cm k i p ++ evs ro cm k i ps := by
  simp [ev, evs, markeds]
theorem evs_append (k i : Nat) (ps qs : List Prog) : evs ro cm k i (ps ++ qs) = evs ro cm k i ps ++ evs ro cm k i qs := by
  induction ps with
  | nil => rw [evs_nil]; rfl
  | cons p ps ih => rw [List.cons_append, evs_cons, evs_cons, ih, List.append_assoc]
end

/-! ### Trees -/

/-- Children without comments. -/
def kids (k i : Nat) (l : Lay) (cs : List Node) : List Ev :=
  cs.flatMap (fun c => start (place k i l c).1 ++ nested k (place k i l c).2 c)

theorem kids_cons (k i : Nat) (l : Lay) (c : Node) (cs : List Node) :
    kids k i l (c :: cs) = start (place k i l c).1 ++ nested k (place k i l c).2 c ++ kids k i l cs := by
  simp [kids]

theorem atEnd_plain {q c : Node} (h : c.extra = false) : atEnd q c = false := by simp [atEnd, h]

theorem opening_plain {k i : Nat} {l : Lay} {p : Option Node} {c : Node} (h : c.extra = false) :
    opening k i l p c = start (place k i l c).1 := by
  unfold opening
  cases p with
  | none => rfl
  | some q => simp [atEnd_plain h]

theorem nesteds_kids {k i : Nat} {l : Lay} : ∀ {cs : List Node} {p : Option Node}, (∀ c ∈ cs, c.extra = false) →
    nesteds k i l p cs = kids k i l cs
  | [], _, _ => rfl
  | c :: cs, p, h => by
    rw [nesteds, kids_cons, opening_plain (h c (by simp)), nesteds_kids (fun d hd => h d (by simp [hd]))]

theorem nested_eq {n : Node} (h : n.extra = false) (k i : Nat) : nested k i n =
    if n.children.isEmpty then List.replicate (ink n.text).length .chr else nesteds k i (lay n.kind n.children) none n.children := by
  cases n with
  | mk id kind named extra err field sr er sb eb text children =>
    cases h
    rw [nested]
    simp

theorem nested_extra {n : Node} (h : n.extra = true) (k i : Nat) : nested k i n = remark i (drawn n) := by
  cases n with
  | mk id kind named extra err field sr er sb eb text children =>
    cases h
    rw [nested]
    simp

/-- A node without comments among its children. -/
theorem nested_calm {n : Node} (h : n.extra = false) (hc : ∀ c ∈ n.children, c.extra = false) (hn : n.children ≠ []) (k i : Nat) :
    nested k i n = kids k i (lay n.kind n.children) n.children := by
  rw [nested_eq h, if_neg (by simpa using hn), nesteds_kids hc]

/-! ### Trees without starts of lines -/

theorem flow_body {kind : String} {cs : List Node} (h : lay kind cs = .flow) : bodyKinds.contains kind = false := by
  cases hb : bodyKinds.contains kind with
  | false => rfl
  | true =>
    exfalso
    have : kind ∈ bodyKinds := by simpa using hb
    simp only [bodyKinds, List.mem_cons, List.not_mem_nil, or_false] at this
    unfold lay at h
    rcases this with rfl | rfl | rfl | rfl | rfl <;> simp [bracedKinds] at h

theorem flowing_eq (n : Node) : flowing n = (lay n.kind n.children == .flow && flowings n.children) := by
  cases n with
  | mk => rw [flowing]

theorem flowings_mem : ∀ {ns : List Node}, flowings ns = true → ∀ c ∈ ns, flowing c = true
  | [], _, c, h => by cases h
  | d :: ns, h, c, hc => by
    rw [flowings, Bool.and_eq_true] at h
    rcases List.mem_cons.mp hc with rfl | hc
    · exact h.1
    · exact flowings_mem h.2 c hc

theorem nested_flowing {cm : CMap} (k : Nat) {n : Node} (h : Lines.All (KidsB cm) n) : ∀ (i : Nat), n.extra = false → flowing n = true →
    ∃ m, nested k i n = List.replicate m .chr := by
  induction h with
  | @mk n h h' ih =>
    intro i hx hf
    rw [flowing_eq, Bool.and_eq_true, beq_iff_eq] at hf
    by_cases hn : n.children = []
    · exact ⟨_, by rw [nested_eq hx, if_pos (by simp [hn])]⟩
    · have hc := fun c hc => (h.calm (flow_body hf.1) c hc).1
      rw [nested_calm hx hc hn, hf.1]
      have hm := flowings_mem hf.2
      revert ih hc hm
      generalize n.children = cs
      intro ih hc hm
      clear h' hf
      induction cs with
      | nil => exact ⟨0, rfl⟩
      | cons c cs ihc =>
        obtain ⟨m1, e1⟩ := ih c (by simp) i (hc c (by simp)) (hm c (by simp))
        obtain ⟨m2, e2⟩ := ihc (fun d hd => ih d (by simp [hd])) (fun d hd => hc d (by simp [hd])) (fun d hd => hm d (by simp [hd]))
        refine ⟨m1 + m2, ?_⟩
        rw [kids_cons, e2]
        simp only [place, start, List.nil_append]
        rw [e1, List.replicate_append_replicate]

theorem nested_flat {cm : CMap} {n : Node} (ha : Lines.All (KidsB cm) n) (hx : n.extra = false) (h : flowing n = true) (k i : Nat) :
    nested k i n = List.replicate (lex n).length .chr := by
  obtain ⟨m, e⟩ := nested_flowing k ha i hx h
  have := (cnt_nested k n i).1
  rw [e, cntC_chrs] at this
  rw [e, this]

end Afmt.Levels
