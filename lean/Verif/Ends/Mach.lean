import Verif.Notes.Syms
import Verif.Trail.Mach

/-!
# White space at the ends of lines of programs with comments between members

The machine of `Verif.Trail.Mach` for programs with comments between the members of bodies.  There is one more state:
directly after a comment, when a line break is pending that is certain to be written (`Q`).
-/

namespace Afmt.Ends
open Afmt.Notes (Sym Br Res Ress syms symss symss_append Roles pr_ress)
open Afmt.Lines (flush_pend flush_none putText_pend)
open Afmt.Trail (inner ends front lead pair Gate tidyEnds_eq inner_append ends_append inner_spaces inner_line)

/-! ### The machine -/

/-- States. -/
inductive St where
  | N | Q | M | B | L | bad
  deriving DecidableEq

def St.rank : St → Nat
  | .N => 0 | .Q => 1 | .M => 2 | .B => 3 | .L => 4 | .bad => 5

instance : LE St := ⟨fun a b => a.rank ≤ b.rank⟩
instance (a b : St) : Decidable (a ≤ b) := inferInstanceAs (Decidable (a.rank ≤ b.rank))

theorem St.le_refl (a : St) : a ≤ a := Nat.le_refl _
theorem St.le_trans {a b c : St} (h : a ≤ b) (h' : b ≤ c) : a ≤ c := Nat.le_trans h h'
theorem St.N_le (a : St) : St.N ≤ a := Nat.zero_le _
theorem St.le_bad (a : St) : a ≤ .bad := by cases a <;> decide

/-- A line break or the blank in its place. -/
def brk : Br → St → St
  | .soft, .N => .B
  | .may, .N => .M
  | .hard, .N => .M
  | .hard, .Q => .M
  | .cut, .N => .Q
  | .cut, .Q => .Q
  | _, _ => .bad

/-- The pending line break is written. -/
def fl : St → St
  | .Q => .B | .M => .B | a => a

/-- The separator of two members of a body. -/
def brl : St → St
  | .N => .L | .Q => .L | _ => .bad

section
variable [Gate]

/-- The text may begin in this state: after the separator of two members it does not begin with a blank, after line breaks
and blanks it may be a blank. -/
def fine (a : St) (s : Str) : Bool :=
  match a with
  | .M => !lead s || s == [' ']
  | .B => !lead s || (Gate.lone && s == [' '])
  | .L => !lead s
  | _ => true

/-- A text. -/
def tx (a : St) (s : Str) : St :=
  match a with
  | .bad => .bad
  | a => if s.isEmpty then fl a
    else if inner s && front s && (Gate.ok s && (!Gate.on || fine a s)) then (if ends s then .B else .N) else .bad

def step (a : St) : Sym → St
  | .txt s => tx a s
  | .flush => fl a
  | .br k => brk k a
  | .sep _ => brl a
  | .eol s => match a with
    | .N => tx .B s
    | _ => .bad

def run (a : St) : List Sym → St
  | [] => a
  | x :: xs => run (step a x) xs

theorem run_append (a : St) (xs ys : List Sym) : run a (xs ++ ys) = run (run a xs) ys := by
  induction xs generalizing a with
  | nil => rfl
  | cons x xs ih => exact ih _

theorem brk_mono (k : Br) {a b : St} (h : a ≤ b) : brk k a ≤ brk k b := by revert h; cases k <;> cases a <;> cases b <;> decide
theorem fl_mono {a b : St} (h : a ≤ b) : fl a ≤ fl b := by revert h; cases a <;> cases b <;> decide
theorem brl_mono {a b : St} (h : a ≤ b) : brl a ≤ brl b := by revert h; cases a <;> cases b <;> decide
theorem fine_mono {a b : St} (h : a ≤ b) (hb : b ≠ .bad) {s : Str} (hf : fine b s = true) : fine a s = true := by
  cases b with
  | bad => exact absurd rfl hb
  | N => cases a <;> first | rfl | exact absurd h (by decide)
  | Q => cases a <;> first | rfl | exact absurd h (by decide)
  | M => cases a <;> first | rfl | exact hf | exact absurd h (by decide)
  | B =>
    cases a with
    | M =>
      have hf' : (!lead s || (Gate.lone && s == [' '])) = true := hf
      show (!lead s || s == [' ']) = true
      rw [Bool.or_eq_true, Bool.and_eq_true] at hf'
      rw [Bool.or_eq_true]
      exact hf'.imp id And.right
    | _ => first | rfl | exact hf | exact absurd h (by decide)
  | L =>
    have hf' : (!lead s) = true := hf
    cases a with
    | B =>
      show (!lead s || (Gate.lone && s == [' '])) = true
      rw [hf']; rfl
    | M =>
      show (!lead s || s == [' ']) = true
      rw [hf']; rfl
    | _ => first | rfl | exact hf | exact absurd h (by decide)
theorem tx_of {a : St} (ha : a ≠ .bad) (s : Str) : tx a s = if s.isEmpty then fl a
    else if inner s && front s && (Gate.ok s && (!Gate.on || fine a s)) then (if ends s then .B else .N) else .bad := by
  cases a <;> first | rfl | exact absurd rfl ha
theorem tx_mono {a b : St} (h : a ≤ b) (s : Str) : tx a s ≤ tx b s := by
  by_cases hb : b = .bad
  · rw [hb]; exact St.le_bad _
  have ha : a ≠ .bad := by rintro rfl; cases b <;> first | exact hb rfl | exact absurd h (by decide)
  rw [tx_of ha, tx_of hb]
  by_cases hs : s.isEmpty = true
  · rw [if_pos hs, if_pos hs]; exact fl_mono h
  rw [if_neg hs, if_neg hs]
  by_cases h2 : (inner s && front s && (Gate.ok s && (!Gate.on || fine b s))) = true
  · rw [if_pos h2, if_pos]
    · exact St.le_refl _
    · simp only [Bool.and_eq_true, Bool.or_eq_true] at h2 ⊢
      exact ⟨h2.1, h2.2.1, h2.2.2.imp id (fine_mono h hb)⟩
  · rw [if_neg h2]; exact St.le_bad _

theorem step_mono {a b : St} (h : a ≤ b) (x : Sym) : step a x ≤ step b x := by
  cases x with
  | txt s => exact tx_mono h s
  | flush => exact fl_mono h
  | br k => exact brk_mono k h
  | sep b => exact brl_mono h
  | eol s =>
    by_cases hb : b = .N
    · subst hb
      have : a = .N := by revert h; cases a <;> decide
      subst this; exact St.le_refl _
    · have : step b (.eol s) = .bad := by cases b <;> first | rfl | exact absurd rfl hb
      rw [this]; exact St.le_bad _

theorem run_mono {a b : St} (h : a ≤ b) (xs : List Sym) : run a xs ≤ run b xs := by
  induction xs generalizing a b with
  | nil => exact h
  | cons x xs ih => exact ih (step_mono h x)

theorem run_bad (xs : List Sym) : run .bad xs = .bad := by
  induction xs with
  | nil => rfl
  | cons x xs ih =>
    have : step .bad x = .bad := by cases x <;> first | rfl | (rename_i k; cases k <;> rfl)
    rw [run, this, ih]

/-! ### The strictest machine -/

theorem fine_sharp {a : St} {s : Str} (h : @fine Gate.sharp a s = true) : fine a s = true := by
  cases a with
  | B =>
    have h' : (!lead s || (false && s == [' '])) = true := h
    rw [Bool.false_and, Bool.or_false] at h'
    show (!lead s || (Gate.lone && s == [' '])) = true
    rw [h']; rfl
  | _ => exact h

theorem tx_le (a : St) (s : Str) : tx a s ≤ @tx Gate.sharp a s := by
  by_cases ha : a = .bad
  · rw [ha]; exact St.le_refl _
  rw [tx_of ha, @tx_of Gate.sharp a ha]
  by_cases hs : s.isEmpty = true
  · rw [if_pos hs, if_pos hs]; exact St.le_refl _
  rw [if_neg hs, if_neg hs]
  by_cases h2 : (inner s && front s && (@Gate.ok Gate.sharp s && (!@Gate.on Gate.sharp || @fine Gate.sharp a s))) = true
  · rw [if_pos h2, if_pos]
    · exact St.le_refl _
    · simp only [Bool.and_eq_true] at h2 ⊢
      have h3 : (!pair s && !s.contains '\n') = true := h2.2.1
      rw [Bool.and_eq_true, Bool.not_eq_true', Bool.not_eq_true'] at h3
      have h4 : fine a s = true := fine_sharp h2.2.2
      exact ⟨h2.1, Gate.base s h3.1 h3.2, by rw [h4, Bool.or_true]⟩
  · rw [if_neg h2]; exact St.le_bad _

theorem step_le (a : St) (x : Sym) : step a x ≤ @step Gate.sharp a x := by
  cases x with
  | txt s => exact tx_le a s
  | eol s => cases a <;> first | exact tx_le .B s | exact St.le_refl _
  | _ => exact St.le_refl _

theorem run_le (a : St) (xs : List Sym) : run a xs ≤ @run Gate.sharp a xs := by
  induction xs generalizing a with
  | nil => exact St.le_refl _
  | cons x xs ih => exact St.le_trans (run_mono (step_le a x) xs) (ih _)

/-! ### What the machine says about the output -/

/-- The abstract state describes the printer state. -/
def Rel (a : St) (st : PSt) : Prop :=
  match a with
  | .N => inner st.out = true ∧ ends st.out = false ∧ st.pend = none
  | .Q => inner st.out = true ∧ ends st.out = false
  | .M => inner st.out = true ∧ ends st.out = false
  | .bad => False
  | _ => inner st.out = true ∧ (st.pend ≠ none → ends st.out = false)

omit [Gate] in
theorem rel_of {a : St} (ha : a ≠ .bad) {st : PSt} (h1 : inner st.out = true) (h2 : ends st.out = false) (h3 : st.pend = none) :
    Rel a st := by
  cases a with
  | N => exact ⟨h1, h2, h3⟩
  | Q => exact ⟨h1, h2⟩
  | M => exact ⟨h1, h2⟩
  | bad => exact absurd rfl ha
  | _ => exact ⟨h1, fun _ => h2⟩

/-- Writing the pending line break. -/
theorem rel_flush {a : St} {st : PSt} (h : Rel a st) : Rel (fl a) st.flush := by
  have key : inner st.out = true ∧ (st.pend ≠ none → ends st.out = false) →
      inner st.flush.out = true ∧ (st.flush.pend ≠ none → ends st.flush.out = false) := by
    intro h
    refine ⟨?_, fun hn => absurd (flush_pend st) hn⟩
    cases hp : st.pend with
    | none => rw [flush_none hp]; exact h.1
    | some i =>
      have he : ends st.out = false := h.2 (by rw [hp]; exact nofun)
      simp only [PSt.flush, hp]
      exact inner_append h.1 (inner_line i) (fun h' => by rw [he] at h'; cases h')
  cases a with
  | N => rw [flush_none h.2.2]; exact h
  | bad => exact h
  | Q => exact key ⟨h.1, fun _ => h.2⟩
  | M => exact key ⟨h.1, fun _ => h.2⟩
  | B => exact key h
  | L => exact key h

omit [Gate] in
theorem rel_ink {a : St} {st : PSt} (h : Rel a st) : inner st.out = true := by
  cases a with
  | bad => exact h.elim
  | _ => exact h.1

/-- A text. -/
theorem rel_text {a : St} {st : PSt} (h : Rel a st) (s : Str) (n : Nat) (hb : tx a s ≠ .bad) :
    Rel (tx a s) (st.flush.putText s n) := by
  have hf := rel_flush h
  have ha : a ≠ .bad := by rintro rfl; exact hb rfl
  cases hs : s with
  | nil =>
    have h1 : tx a [] = fl a := by rw [tx_of ha]; rfl
    rw [h1]
    have h2 : (st.flush.putText [] n) = { st.flush with col := st.flush.col + n } := by
      unfold PSt.putText
      rw [if_neg (by rintro ⟨h, _⟩; cases h), List.append_nil]
    rw [h2]
    cases a <;> exact hf
  | cons c t =>
    rw [hs] at hb
    rw [tx_of ha, if_neg (show ¬ List.isEmpty (c :: t) = true by simp)] at hb ⊢
    split
    · rename_i hc
      rw [Bool.and_eq_true, Bool.and_eq_true] at hc
      have hpend : (st.flush.putText (c :: t) n).pend = none := by rw [putText_pend, flush_pend]
      have hput : inner (st.flush.out ++ c :: t) = true := inner_append (rel_ink hf) hc.1.1 (fun _ => hc.1.2)
      split
      · refine ⟨?_, fun hn => absurd hpend hn⟩
        unfold PSt.putText
        split
        · exact rel_ink hf
        · exact hput
      · rename_i he
        have hout : (st.flush.putText (c :: t) n).out = st.flush.out ++ c :: t := by
          unfold PSt.putText
          rw [if_neg]
          rintro ⟨h, _⟩
          rw [h] at he
          exact he (by decide)
        refine ⟨by rw [hout]; exact hput, ?_, hpend⟩
        rw [hout, ends_append (by simp)]
        simpa using he
    · rename_i hc
      rw [if_neg hc] at hb
      exact absurd rfl hb

omit [Gate] in
theorem soft_inv {b : St} (h : brk .soft b ≠ .bad) : b = .N := by revert h; cases b <;> decide
omit [Gate] in
theorem may_inv {b : St} (h : brk .may b ≠ .bad) : b = .N := by revert h; cases b <;> decide
omit [Gate] in
theorem brl_inv {b : St} (h : brl b ≠ .bad) : b = .N ∨ b = .Q := by revert h; cases b <;> decide
omit [Gate] in
theorem rel_brk {k : Br} {a : St} {st : PSt} (h : Rel a st) (hb : brk k a ≠ .bad) (i : Nat) :
    Rel (brk k a) { st with pend := some i } := by
  have key : inner st.out = true ∧ ends st.out = false → Rel (brk k a) { st with pend := some i } := by
    intro h'
    cases k <;> cases a <;> first | exact absurd rfl hb | exact ⟨h'.1, fun _ => h'.2⟩ | exact h'
  cases a with
  | N => exact key ⟨h.1, h.2.1⟩
  | Q => exact key h
  | _ => cases k <;> exact absurd rfl hb

/-- As long as the machine does not go bad, it describes the printer state. -/
theorem run_rel {xs : List Sym} {ops : List Op} (h : Ress xs ops) : ∀ {a : St} {st : PSt}, Rel a st → run a xs ≠ .bad →
    Rel (run a xs) (runOps ops st) := by
  induction h with
  | nil => intro a st h _; exact h
  | @cons x xs o os hx hr ih =>
    intro a st h1 h3
    rw [runOps_append]
    have hb : step a x ≠ .bad := by
      intro e; rw [run, e, run_bad] at h3; exact h3 rfl
    rw [run] at h3 ⊢
    refine ih ?_ h3
    cases hx with
    | txt s n => exact rel_text h1 s n hb
    | flush => exact rel_flush h1
    | pend k i => exact rel_brk h1 hb i
    | space =>
      have := soft_inv hb; subst this
      refine ⟨?_, fun hn => absurd h1.2.2 hn⟩
      exact inner_append h1.1 rfl (fun _ => rfl)
    | none =>
      have := may_inv hb; subst this
      exact ⟨h1.1, h1.2.1⟩
    | blank i =>
      have h4 : inner st.out = true ∧ ends st.out = false := by
        rcases brl_inv hb with rfl | rfl
        · exact ⟨h1.1, h1.2.1⟩
        · exact h1
      have h5 : step a (.sep true) = .L := by rcases brl_inv hb with rfl | rfl <;> rfl
      rw [h5]
      refine ⟨?_, fun _ => ?_⟩
      · exact inner_append h4.1 rfl (fun h => by rw [h4.2] at h; cases h)
      · show ends (st.out ++ ['\n']) = false
        rw [ends_append (by simp)]; decide
    | line i =>
      have h4 : inner st.out = true ∧ ends st.out = false := by
        rcases brl_inv hb with rfl | rfl
        · exact ⟨h1.1, h1.2.1⟩
        · exact h1
      have h5 : step a (.sep false) = .L := by rcases brl_inv hb with rfl | rfl <;> rfl
      rw [h5]
      exact ⟨h4.1, fun _ => h4.2⟩
    | eol s n n' =>
      have : a = .N := by cases a <;> first | rfl | exact absurd rfl hb
      subst this
      have h6 : Rel .B (st.flush.putText [' '] n) := by
        rw [flush_none h1.2.2]
        unfold PSt.putText
        split
        · exact ⟨h1.1, fun hn => absurd h1.2.2 hn⟩
        · exact ⟨inner_append h1.1 rfl (fun _ => rfl), fun hn => absurd h1.2.2 hn⟩
      exact rel_text h6 s n' hb

/-- The machine does not accept a line break as a text. -/
theorem run_feed {xs : List Sym} : ∀ {a : St}, run a xs ≠ .bad → Sym.txt ['\n'] ∉ xs := by
  induction xs with
  | nil => intro a _ h; cases h
  | cons x xs ih =>
    intro a h hm
    rcases List.mem_cons.1 hm with e | hm
    · subst e
      have : step a (.txt ['\n']) = .bad := by
        cases a <;> first | rfl | (simp [step, tx, front])
      rw [run, this, run_bad] at h
      exact h rfl
    · exact ih h hm

/-- No line of the layout, except perhaps the last one, ends with white space. -/
theorem layout_inner {ro : Comment → Notes.Role} {cm : CMap} (hro : Roles ro cm) {k : Nat} {p : Prog} {d : Doc} {l : List Comment}
    (h : p.build k cm = .ok (d, l)) (w : Nat) (hr : run .N (syms ro cm p) ≠ .bad) : inner (layout w d) = true := by
  obtain ⟨ops, h1, h2⟩ := pr_ress hro k w p d l h (run_feed hr) 0 false [] PSt.init
  unfold layout
  rw [h1]
  exact rel_ink (rel_flush (run_rel h2 (a := .N) (st := PSt.init) ⟨rfl, rfl, rfl⟩ hr))

end
end Afmt.Ends
