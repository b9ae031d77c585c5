import Verif.Gram.Content

/-!
# Word boundaries of the output

A program writes texts one after the other.  Where one text ends with a character of a word and the next begins with
one, the two words would become one.  An abstract machine with three states decides whether that can happen: between
words (`S`), directly after a character of a word (`U`), and after two words have met (`bad`).
-/

namespace Afmt.Words
open Afmt.Gram

/-- States of the machine. -/
inductive St where
  | S | U | bad
  deriving DecidableEq

/-- The states by how much they promise. -/
def St.rank : St → Nat
  | .S => 0
  | .U => 1
  | .bad => 2

instance : LE St := ⟨fun a b => a.rank ≤ b.rank⟩
instance (a b : St) : Decidable (a ≤ b) := inferInstanceAs (Decidable (a.rank ≤ b.rank))

theorem St.le_refl (a : St) : a ≤ a := Nat.le_refl _
theorem St.le_trans {a b c : St} (h : a ≤ b) (h' : b ≤ c) : a ≤ c := Nat.le_trans h h'
theorem St.S_le (a : St) : St.S ≤ a := Nat.zero_le _
theorem St.ne_bad {a b : St} (h : a ≤ b) (hb : b ≠ .bad) : a ≠ .bad := by
  revert h hb; cases a <;> cases b <;> decide

/-- The larger state. -/
def up (a b : St) : St := if a ≤ b then b else a

theorem up_left (a b : St) : a ≤ up a b := by cases a <;> cases b <;> decide
theorem up_right (a b : St) : b ≤ up a b := by cases a <;> cases b <;> decide
theorem up_le {a b c : St} (h : a ≤ c) (h' : b ≤ c) : up a b ≤ c := by unfold up; split <;> assumption

/-- A text is written. -/
def tx (a : St) (s : Str) : St :=
  match a with
  | .bad => .bad
  | .U => if headWord s then .bad else if endsWord true s then .U else .S
  | .S => if endsWord false s then .U else .S

/-- A blank or a comment is written. -/
def rs : St → St
  | .bad => .bad
  | _ => .S

theorem rs_le (a : St) : rs a ≤ a := by cases a <;> decide
theorem rs_mono {a b : St} (h : a ≤ b) : rs a ≤ rs b := by revert h; cases a <;> cases b <;> decide

theorem endsWord_mono (s : Str) : endsWord false s = true → endsWord true s = true := by
  cases s with
  | nil => intro h; cases h
  | cons c s => exact id

theorem tx_mono {a b : St} (h : a ≤ b) (s : Str) : tx a s ≤ tx b s := by
  have h1 := endsWord_mono s
  cases a <;> cases b <;> first | exact St.le_refl _ | exact absurd h (by decide) | skip
  · show (if endsWord false s then St.U else St.S) ≤ (if headWord s then St.bad else if endsWord true s then St.U else St.S)
    split
    · rename_i hx
      rw [if_pos (h1 hx)]
      split <;> decide
    · exact St.S_le _
  · show (if endsWord false s then St.U else St.S) ≤ .bad
    split <;> decide
  · show (if headWord s then St.bad else if endsWord true s then St.U else St.S) ≤ .bad
    split
    · decide
    · split <;> decide

mutual
/-- The state after a program, at most. -/
def exec (a : St) : Prog → St
  | .txt s => tx a s
  | .nl => rs a
  | .softline => rs a
  | .maybeline => a
  | .forceBreak => a
  | .sep _ => rs a
  | .concat ps => execs a ps
  | .group p => exec a p
  | .indent p => exec a p
  | .dedent p => exec a p
  | .pre _ => a
  | .post _ => a
  | .dangling _ => rs a
  | .rootDangling _ => a
  | .punct p => tx a p.text
  | .ifDangling _ p q => up (exec a p) (exec a q)
  | .fail _ => a
/-- The state after programs. -/
def execs (a : St) : List Prog → St
  | [] => a
  | p :: ps => execs (exec a p) ps
end

theorem up_mono {a b a' b' : St} (h : a ≤ a') (h' : b ≤ b') : up a b ≤ up a' b' :=
  up_le (St.le_trans h (up_left _ _)) (St.le_trans h' (up_right _ _))

mutual
theorem exec_mono {a b : St} (h : a ≤ b) : ∀ p, exec a p ≤ exec b p
  | .txt s => by simpa only [exec] using tx_mono h s
  | .nl => by simpa only [exec] using rs_mono h
  | .softline => by simpa only [exec] using rs_mono h
  | .maybeline => by simpa only [exec] using h
  | .forceBreak => by simpa only [exec] using h
  | .sep _ => by simpa only [exec] using rs_mono h
  | .concat ps => by simpa only [exec] using execs_mono h ps
  | .group p => by simpa only [exec] using exec_mono h p
  | .indent p => by simpa only [exec] using exec_mono h p
  | .dedent p => by simpa only [exec] using exec_mono h p
  | .pre _ => by simpa only [exec] using h
  | .post _ => by simpa only [exec] using h
  | .dangling _ => by simpa only [exec] using rs_mono h
  | .rootDangling _ => by simpa only [exec] using h
  | .punct p => by simpa only [exec] using tx_mono h p.text
  | .ifDangling _ p q => by simpa only [exec] using up_mono (exec_mono h p) (exec_mono h q)
  | .fail _ => by simpa only [exec] using h
theorem execs_mono {a b : St} (h : a ≤ b) : ∀ ps, execs a ps ≤ execs b ps
  | [] => by simpa only [execs] using h
  | p :: ps => by simpa only [execs] using execs_mono (exec_mono h p) ps
end

theorem execs_append (ps qs : List Prog) : ∀ a, execs a (ps ++ qs) = execs (execs a ps) qs := by
  induction ps with
  | nil => intro a; rw [execs]; rfl
  | cons p ps ih => intro a; rw [List.cons_append, execs, execs, ih]

end Afmt.Words
