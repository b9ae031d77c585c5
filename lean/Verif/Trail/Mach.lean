import Verif.Lines.Syms

/-!
# White space at the ends of lines

A line of the output ends with white space if a blank is written and a line break comes next.  An abstract machine with
four states decides whether that can happen: after a visible character (`N`), after a blank or with a line break
pending (`B`), directly after the separator of two members of a body (`L`), and after a line break that may follow a
blank (`bad`).  The machine can also forbid texts that begin with a blank in the states `B` and `L`, and texts with two
blanks in a row (`Gate`).
-/

namespace Afmt

/-- White space that may stand at the end of a line. -/
def isSpace (c : Char) : Bool := c == ' ' || c == '\t' || c == '\r'

/-- No line of the text ends with white space. -/
def tidyEnds : Str → Bool
  | [] => true
  | [c] => !isSpace c
  | c :: d :: s => !(isSpace c && d == '\n') && tidyEnds (d :: s)

namespace Trail
open Afmt.Lines (Sym Res Ress syms symss symss_append Silent pr_ress flush_pend flush_none putText_pend)

/-- No line break of the text comes after white space. -/
def inner : Str → Bool
  | c :: d :: s => !(isSpace c && d == '\n') && inner (d :: s)
  | _ => true

/-- The text ends with white space. -/
def ends (s : Str) : Bool := s.getLast?.any isSpace

/-- The text does not begin with a line break. -/
def front (s : Str) : Bool := !(s.head? == some '\n')

theorem ends_cons (c d : Char) (s : Str) : ends (c :: d :: s) = ends (d :: s) := by
  unfold ends; rw [List.getLast?_cons_cons]

theorem tidyEnds_eq : ∀ s : Str, tidyEnds s = (inner s && !ends s)
  | [] => rfl
  | [c] => by simp [tidyEnds, inner, ends]
  | c :: d :: s => by rw [tidyEnds, inner, ends_cons, tidyEnds_eq (d :: s), Bool.and_assoc]

theorem inner_append : ∀ {a b : Str}, inner a = true → inner b = true → (ends a = true → front b = true) → inner (a ++ b) = true
  | [], b, _, h, _ => h
  | [c], [], _, _, _ => rfl
  | [c], d :: b, _, h, h' => by
    show (!(isSpace c && d == '\n') && inner (d :: b)) = true
    rw [h, Bool.and_true]
    cases hc : isSpace c with
    | false => rfl
    | true =>
      have := h' (by simp [ends, hc])
      simpa [front] using this
  | c :: d :: a, b, h, h2, h' => by
    rw [inner, Bool.and_eq_true] at h
    show (!(isSpace c && d == '\n') && inner (d :: a ++ b)) = true
    rw [h.1, Bool.true_and]
    exact inner_append h.2 h2 (fun he => h' (by rw [ends_cons]; exact he))

theorem ends_append {a b : Str} (hb : b ≠ []) : ends (a ++ b) = ends b := by
  unfold ends
  rw [List.getLast?_append]
  cases h : b.getLast? with
  | none => exact absurd (List.getLast?_eq_none_iff.1 h) hb
  | some c => rfl

theorem inner_spaces : ∀ n, inner (spaces n) = true
  | 0 => rfl
  | 1 => by decide
  | n + 2 => by
    have := inner_spaces (n + 1)
    simp only [spaces, List.replicate_succ] at this ⊢
    rw [inner, this]; rfl

theorem inner_line (n : Nat) : inner ('\n' :: spaces n) = true := by
  cases n with
  | zero => rfl
  | succ n =>
    have := inner_spaces (n + 1)
    simp only [spaces, List.replicate_succ] at this ⊢
    rw [inner, this]; rfl

/-! ### Blanks -/

/-- The text begins with a blank. -/
def lead (s : Str) : Bool := s.head? == some ' '

/-- The text contains two blanks in a row. -/
def pair : Str → Bool
  | c :: d :: s => (c == ' ' && d == ' ') || pair (d :: s)
  | _ => false

theorem ends_blank {s : Str} (h : ends s = false) : endsWithSpace s = false := by
  unfold ends at h
  unfold endsWithSpace
  cases he : s.getLast? with
  | none => rfl
  | some c =>
    rw [he] at h
    simp only [Option.any, isSpace, Bool.or_eq_false_iff] at h
    simpa using h.1.1

theorem pair_append : ∀ {a b : Str}, pair a = false → pair b = false → (endsWithSpace a = true → lead b = false) → pair (a ++ b) = false
  | [], b, _, h, _ => h
  | [c], [], _, _, _ => rfl
  | [c], d :: b, _, h, h' => by
    show ((c == ' ' && d == ' ') || pair (d :: b)) = false
    rw [h, Bool.or_false]
    cases hc : c == ' ' with
    | false => rfl
    | true =>
      have := h' (by simpa [endsWithSpace] using hc)
      simpa [lead] using this
  | c :: d :: a, b, h, h2, h' => by
    rw [pair, Bool.or_eq_false_iff] at h
    show ((c == ' ' && d == ' ') || pair (d :: a ++ b)) = false
    rw [h.1, Bool.false_or]
    exact pair_append h.2 h2 (fun he => h' (by unfold endsWithSpace at *; rw [List.getLast?_cons_cons]; exact he))

theorem pair_map {f : Char → Char} (hf : ∀ c, (f c == ' ') = (c == ' ')) : ∀ s : Str, pair (s.map f) = pair s
  | [] => rfl
  | [c] => rfl
  | c :: d :: s => by
    have := pair_map hf (d :: s)
    simp only [List.map_cons, pair, hf] at this ⊢
    rw [this]

theorem contains_append {a b : Str} (h : a.contains '\n' = false) (h' : b.contains '\n' = false) : (a ++ b).contains '\n' = false := by
  simp only [List.contains_eq_mem, decide_eq_false_iff_not, List.mem_append, not_or] at *
  exact ⟨h, h'⟩

theorem contains_map {f : Char → Char} (hf : ∀ c, (f c == '\n') = (c == '\n')) (s : Str) : List.contains (s.map f) '\n' = s.contains '\n' := by
  induction s with
  | nil => rfl
  | cons c s ih =>
    rw [List.map_cons, List.contains_cons, List.contains_cons, ih, BEq.comm, hf, BEq.comm]

/-- What the machine requires of texts besides the ends of lines: whether they may begin with a blank after a blank or a
line break, and which words they may contain. -/
class Gate where
  on : Bool
  lone : Bool
  ok : Str → Bool
  base : ∀ s, pair s = false → s.contains '\n' = false → ok s = true
  append : ∀ s r, ok s = true → ok r = true → ends s = false → ok (s ++ r) = true
  cons : ∀ s, ok s = true → (on = true → lead s = false) → ok (' ' :: s) = true
  map : ∀ (f : Char → Char) s, (∀ c, (f c == ' ') = (c == ' ')) → (∀ c, (f c == '\n') = (c == '\n')) → ok s = true → ok (s.map f) = true

/-- Blanks are not looked at. -/
@[reducible] def Gate.loose : Gate where
  on := false
  lone := true
  ok _ := true
  base _ _ _ := rfl
  append _ _ _ _ _ := rfl
  cons _ _ _ := rfl
  map _ _ _ _ _ := rfl

/-- Texts must not begin with a blank after a blank or a line break. -/
@[reducible] def Gate.edges : Gate where
  on := true
  lone := true
  ok _ := true
  base _ _ _ := rfl
  append _ _ _ _ _ := rfl
  cons _ _ _ := rfl
  map _ _ _ _ _ := rfl

/-- Besides, texts must not contain two blanks in a row. -/
@[reducible] def Gate.strict : Gate where
  on := true
  lone := true
  ok s := !pair s
  base s h _ := by rw [h]; rfl
  append s r h h' h3 := by
    simp only [Bool.not_eq_true'] at *
    exact pair_append h h' (fun he => by rw [ends_blank h3] at he; cases he)
  cons s h h' := by
    simp only [Bool.not_eq_true'] at *
    exact pair_append (a := [' ']) rfl h (fun _ => h' trivial)
  map f s hf _ h := by rw [pair_map hf]; exact h

/-- Besides, no text begins with a blank after a blank or a line break, not even a text that is a blank, and no text
contains a line break. -/
@[reducible] def Gate.sharp : Gate where
  on := true
  lone := false
  ok s := !pair s && !s.contains '\n'
  base s h h' := by rw [h, h']; rfl
  append s r h h' h3 := by
    simp only [Bool.and_eq_true, Bool.not_eq_true'] at *
    exact ⟨pair_append h.1 h'.1 (fun he => by rw [ends_blank h3] at he; cases he), contains_append h.2 h'.2⟩
  cons s h h' := by
    simp only [Bool.and_eq_true, Bool.not_eq_true'] at *
    exact ⟨pair_append (a := [' ']) rfl h.1 (fun _ => h' trivial), contains_append (a := [' ']) rfl h.2⟩
  map f s hf hn h := by rw [pair_map hf, contains_map hn]; exact h

/-- Texts must not begin with a blank after a blank or a line break and must not contain line breaks. -/
@[reducible] def Gate.whole : Gate where
  on := true
  lone := false
  ok s := !s.contains '\n'
  base s _ h := by rw [h]; rfl
  append s r h h' _ := by
    simp only [Bool.not_eq_true'] at *
    exact contains_append h h'
  cons s h _ := by
    simp only [Bool.not_eq_true'] at *
    exact contains_append (a := [' ']) rfl h
  map f s _ hn h := by rw [contains_map hn]; exact h

/-! ### The machine -/

/-- States: a visible character was written last; then perhaps came a line break that leaves nothing behind if it is not
taken; then came white space; then the separator of two members. -/
inductive St where
  | N | M | B | L | bad
  deriving DecidableEq

def St.rank : St → Nat
  | .N => 0 | .M => 1 | .B => 2 | .L => 3 | .bad => 4

instance : LE St := ⟨fun a b => a.rank ≤ b.rank⟩
instance (a b : St) : Decidable (a ≤ b) := inferInstanceAs (Decidable (a.rank ≤ b.rank))

theorem St.le_refl (a : St) : a ≤ a := Nat.le_refl _
theorem St.le_trans {a b c : St} (h : a ≤ b) (h' : b ≤ c) : a ≤ c := Nat.le_trans h h'
theorem St.N_le (a : St) : St.N ≤ a := Nat.zero_le _
theorem St.le_bad (a : St) : a ≤ .bad := by cases a <;> decide

/-- A pending line break is written. -/
def fl : St → St
  | .M => .B | a => a

/-- A line break that leaves nothing behind if it is not taken. -/
def mb : St → St
  | .N => .M | _ => .bad

/-- A line break or the blank in its place. -/
def brk : St → St
  | .N => .B | _ => .bad

/-- The separator of two members of a body. -/
def brl : St → St
  | .N => .L | _ => .bad

section
variable [Gate]

/-- The text may begin in this state: after the separator of two members it does not begin with a blank, after other line
breaks and blanks it may be a blank, unless the gate forbids this too. -/
def fine (a : St) (s : Str) : Bool :=
  match a with
  | .M => !lead s || s == [' ']
  | .B => !lead s || (Gate.lone && s == [' '])
  | .L => !lead s
  | _ => true

/-- A text. -/
def tx (a : St) (s : Str) : St :=
  match a with
  | .bad => .bad
  | a => if s.isEmpty then fl a
    else if inner s && front s && (Gate.ok s && (!Gate.on || fine a s)) then (if ends s then .B else .N) else .bad

def step (a : St) : Sym → St
  | .txt s => tx a s
  | .flush => fl a
  | .br => brk a
  | .may => mb a
  | .sep _ => brl a

def run (a : St) : List Sym → St
  | [] => a
  | x :: xs => run (step a x) xs

theorem run_append (a : St) (xs ys : List Sym) : run a (xs ++ ys) = run (run a xs) ys := by
  induction xs generalizing a with
  | nil => rfl
  | cons x xs ih => exact ih _

theorem fl_mono {a b : St} (h : a ≤ b) : fl a ≤ fl b := by revert h; cases a <;> cases b <;> decide
theorem fl_bad {a : St} (h : a ≠ .bad) : fl a ≠ .bad := by revert h; cases a <;> decide
theorem mb_mono {a b : St} (h : a ≤ b) : mb a ≤ mb b := by revert h; cases a <;> cases b <;> decide
theorem brk_mono {a b : St} (h : a ≤ b) : brk a ≤ brk b := by revert h; cases a <;> cases b <;> decide
theorem brl_mono {a b : St} (h : a ≤ b) : brl a ≤ brl b := by revert h; cases a <;> cases b <;> decide
theorem fine_mono {a b : St} (h : a ≤ b) (hb : b ≠ .bad) {s : Str} (hf : fine b s = true) : fine a s = true := by
  cases hl : lead s with
  | false => cases a <;> cases b <;> first | (simp [fine, hl]; done) | exact absurd rfl hb | exact absurd h (by decide)
  | true => cases a <;> cases b <;> first | rfl | exact hf | exact absurd rfl hb | exact absurd h (by decide) | (simp [fine, hl] at hf ⊢; done) | (simp [fine, hl] at hf ⊢; exact hf.2)
theorem tx_of {a : St} (ha : a ≠ .bad) (s : Str) : tx a s = if s.isEmpty then fl a
    else if inner s && front s && (Gate.ok s && (!Gate.on || fine a s)) then (if ends s then .B else .N) else .bad := by
  cases a <;> first | rfl | exact absurd rfl ha
theorem tx_mono {a b : St} (h : a ≤ b) (s : Str) : tx a s ≤ tx b s := by
  by_cases hb : b = .bad
  · rw [hb]; exact St.le_bad _
  have ha : a ≠ .bad := by rintro rfl; cases b <;> first | exact hb rfl | exact absurd h (by decide)
  rw [tx_of ha, tx_of hb]
  by_cases hs : s.isEmpty = true
  · rw [if_pos hs, if_pos hs]; exact fl_mono h
  rw [if_neg hs, if_neg hs]
  by_cases h2 : (inner s && front s && (Gate.ok s && (!Gate.on || fine b s))) = true
  · rw [if_pos h2, if_pos]
    · exact St.le_refl _
    · simp only [Bool.and_eq_true, Bool.or_eq_true] at h2 ⊢
      exact ⟨h2.1, h2.2.1, h2.2.2.imp id (fine_mono h hb)⟩
  · rw [if_neg h2]; exact St.le_bad _

theorem step_mono {a b : St} (h : a ≤ b) (x : Sym) : step a x ≤ step b x := by
  cases x with
  | txt s => exact tx_mono h s
  | flush => exact fl_mono h
  | br => exact brk_mono h
  | may => exact mb_mono h
  | sep b => exact brl_mono h

theorem run_mono {a b : St} (h : a ≤ b) (xs : List Sym) : run a xs ≤ run b xs := by
  induction xs generalizing a b with
  | nil => exact h
  | cons x xs ih => exact ih (step_mono h x)

theorem run_bad (xs : List Sym) : run .bad xs = .bad := by
  induction xs with
  | nil => rfl
  | cons x xs ih =>
    have : step .bad x = .bad := by cases x <;> rfl
    rw [run, this, ih]

/-! ### The strictest machine -/

theorem fine_sharp {a : St} {s : Str} (h : @fine Gate.sharp a s = true) : fine a s = true := by
  cases a with
  | B =>
    have h' : (!lead s || (false && s == [' '])) = true := h
    rw [Bool.false_and, Bool.or_false] at h'
    show (!lead s || (Gate.lone && s == [' '])) = true
    rw [h']; rfl
  | L => exact h
  | M => exact h
  | _ => rfl

theorem tx_le (a : St) (s : Str) : tx a s ≤ @tx Gate.sharp a s := by
  by_cases ha : a = .bad
  · rw [ha]; exact St.le_refl _
  rw [tx_of ha, @tx_of Gate.sharp a ha]
  by_cases hs : s.isEmpty = true
  · rw [if_pos hs, if_pos hs]; exact St.le_refl _
  rw [if_neg hs, if_neg hs]
  by_cases h2 : (inner s && front s && (@Gate.ok Gate.sharp s && (!@Gate.on Gate.sharp || @fine Gate.sharp a s))) = true
  · rw [if_pos h2, if_pos]
    · exact St.le_refl _
    · simp only [Bool.and_eq_true] at h2 ⊢
      have h3 : (!pair s && !s.contains '\n') = true := h2.2.1
      rw [Bool.and_eq_true, Bool.not_eq_true', Bool.not_eq_true'] at h3
      have h4 : fine a s = true := fine_sharp h2.2.2
      exact ⟨h2.1, Gate.base s h3.1 h3.2, by rw [h4, Bool.or_true]⟩
  · rw [if_neg h2]; exact St.le_bad _

theorem step_le (a : St) (x : Sym) : step a x ≤ @step Gate.sharp a x := by
  cases x with
  | txt s => exact tx_le a s
  | _ => exact St.le_refl _

theorem run_le (a : St) (xs : List Sym) : run a xs ≤ @run Gate.sharp a xs := by
  induction xs generalizing a with
  | nil => exact St.le_refl _
  | cons x xs ih => exact St.le_trans (run_mono (step_le a x) xs) (ih _)

/-! ### What the machine says about the output -/

/-- The abstract state describes the printer state. -/
def Rel (a : St) (st : PSt) : Prop :=
  match a with
  | .N => inner st.out = true ∧ ends st.out = false ∧ st.pend = none
  | .M => inner st.out = true ∧ ends st.out = false
  | .bad => False
  | _ => inner st.out = true ∧ (st.pend ≠ none → ends st.out = false)

omit [Gate] in
theorem rel_of {a : St} (ha : a ≠ .bad) {st : PSt} (h1 : inner st.out = true) (h2 : ends st.out = false) (h3 : st.pend = none) :
    Rel a st := by
  cases a with
  | N => exact ⟨h1, h2, h3⟩
  | M => exact ⟨h1, h2⟩
  | bad => exact absurd rfl ha
  | _ => exact ⟨h1, fun _ => h2⟩

/-- Writing the pending line break. -/
theorem rel_flush {a : St} {st : PSt} (h : Rel a st) : Rel (fl a) st.flush := by
  cases hp : st.pend with
  | none =>
    rw [flush_none hp]
    cases a with
    | M => exact ⟨h.1, fun hn => absurd hp hn⟩
    | _ => exact h
  | some i =>
    have key : inner st.out = true ∧ (st.pend ≠ none → ends st.out = false) →
        inner st.flush.out = true ∧ (st.flush.pend ≠ none → ends st.flush.out = false) := by
      intro h
      have he : ends st.out = false := h.2 (by rw [hp]; exact nofun)
      refine ⟨?_, fun hn => absurd (flush_pend st) hn⟩
      simp only [PSt.flush, hp]
      exact inner_append h.1 (inner_line i) (fun h' => by rw [he] at h'; cases h')
    cases a with
    | N => rw [h.2.2] at hp; cases hp
    | bad => exact h
    | M => exact key ⟨h.1, fun _ => h.2⟩
    | B => exact key h
    | L => exact key h

omit [Gate] in
theorem rel_ink {a : St} {st : PSt} (h : Rel a st) : inner st.out = true := by
  cases a with
  | bad => exact h.elim
  | _ => exact h.1

/-- A text. -/
theorem rel_text {a : St} {st : PSt} (h : Rel a st) (s : Str) (n : Nat) (hb : tx a s ≠ .bad) :
    Rel (tx a s) (st.flush.putText s n) := by
  have hf := rel_flush h
  have ha : a ≠ .bad := by rintro rfl; exact hb rfl
  cases hs : s with
  | nil =>
    have h1 : tx a [] = fl a := by rw [tx_of ha]; rfl
    rw [h1]
    have h2 : (st.flush.putText [] n) = { st.flush with col := st.flush.col + n } := by
      unfold PSt.putText
      rw [if_neg (by rintro ⟨h, _⟩; cases h), List.append_nil]
    rw [h2]
    cases a <;> exact hf
  | cons c t =>
    rw [hs] at hb
    rw [tx_of ha, if_neg (show ¬ List.isEmpty (c :: t) = true by simp)] at hb ⊢
    split
    · rename_i hc
      rw [Bool.and_eq_true, Bool.and_eq_true] at hc
      have hpend : (st.flush.putText (c :: t) n).pend = none := by rw [putText_pend, flush_pend]
      have hput : inner (st.flush.out ++ c :: t) = true := inner_append (rel_ink hf) hc.1.1 (fun _ => hc.1.2)
      split
      · refine ⟨?_, fun hn => absurd hpend hn⟩
        unfold PSt.putText
        split
        · exact rel_ink hf
        · exact hput
      · rename_i he
        have hout : (st.flush.putText (c :: t) n).out = st.flush.out ++ c :: t := by
          unfold PSt.putText
          rw [if_neg]
          rintro ⟨h, _⟩
          rw [h] at he
          exact he (by decide)
        refine ⟨by rw [hout]; exact hput, ?_, hpend⟩
        rw [hout, ends_append (by simp)]
        simpa using he
    · rename_i hc
      rw [if_neg hc] at hb
      exact absurd rfl hb

omit [Gate] in
theorem brk_inv {b : St} (h : brk b ≠ .bad) : b = .N := by revert h; cases b <;> decide
omit [Gate] in
theorem mb_inv {b : St} (h : mb b ≠ .bad) : b = .N := by revert h; cases b <;> decide
omit [Gate] in
theorem brl_inv {b : St} (h : brl b ≠ .bad) : b = .N := by revert h; cases b <;> decide

/-- As long as the machine does not go bad, it describes the printer state. -/
theorem run_rel {xs : List Sym} {ops : List Op} (h : Ress xs ops) : ∀ {a : St} {st : PSt}, Rel a st → run a xs ≠ .bad →
    Rel (run a xs) (runOps ops st) := by
  induction h with
  | nil => intro a st h _; exact h
  | @cons x xs o os hx hr ih =>
    intro a st h1 h3
    rw [runOps_append]
    have hb : step a x ≠ .bad := by
      intro e; rw [run, e, run_bad] at h3; exact h3 rfl
    rw [run] at h3 ⊢
    refine ih ?_ h3
    cases hx with
    | txt s n => exact rel_text h1 s n hb
    | flush => exact rel_flush h1
    | pend i =>
      have := brk_inv hb; subst this
      exact ⟨h1.1, fun _ => h1.2.1⟩
    | space =>
      have := brk_inv hb; subst this
      refine ⟨?_, fun hn => absurd h1.2.2 hn⟩
      exact inner_append h1.1 rfl (fun _ => rfl)
    | pendm i =>
      have := mb_inv hb; subst this
      exact ⟨h1.1, h1.2.1⟩
    | none =>
      have := mb_inv hb; subst this
      exact ⟨h1.1, h1.2.1⟩
    | blank i =>
      have := brl_inv hb; subst this
      refine ⟨?_, fun _ => ?_⟩
      · exact inner_append h1.1 rfl (fun h => by rw [h1.2.1] at h; cases h)
      · show ends (st.out ++ ['\n']) = false
        rw [ends_append (by simp)]; decide
    | line i =>
      have := brl_inv hb; subst this
      exact ⟨h1.1, fun _ => h1.2.1⟩

/-- No line of the layout of a program without comments, except perhaps the last one, ends with white space. -/
theorem layout_inner {cm : CMap} (hs : Silent cm) {k : Nat} {p : Prog} {d : Doc} {l : List Comment}
    (h : p.build k cm = .ok (d, l)) (w : Nat) (hr : run .N (syms p) ≠ .bad) : inner (layout w d) = true := by
  obtain ⟨ops, h1, h2⟩ := pr_ress hs k w p d l h 0 false [] PSt.init
  unfold layout
  rw [h1]
  exact rel_ink (rel_flush (run_rel h2 (a := .N) (st := PSt.init) ⟨rfl, rfl, rfl⟩ hr))

end
end Trail
end Afmt
