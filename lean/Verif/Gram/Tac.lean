import Verif.Gram.Wp

/-!
# Tactics for the proofs about constructors

They use the names `C` (context), `hv` (segments of the children).
-/

namespace Afmt.Gram
open Prog New

set_option hygiene false in
/-- Elements of a list of children match the atom. -/
macro "allsat" : tactic => `(tactic| first
  | assumption
  | exact Sep.all (by assumption)
  | exact sep0_all (by assumption)
  | exact List.forall_mem_cons.mpr ⟨by assumption, by assumption⟩
  | exact List.forall_mem_cons.mpr ⟨by assumption, sep0_all (by assumption)⟩)

theorem sep0_all {α : Type} {a s : α → Prop} {xs vs : List α} (h : (xs = [] ∧ vs = []) ∨ Sep a s xs vs) : ∀ x ∈ xs, a x := by
  rcases h with ⟨rfl, _⟩ | h
  · simp
  · exact h.all

set_option hygiene false in
/-- The segments in normal form. -/
macro "nrm" : tactic => `(tactic| change At _ _ _ at hv)

set_option hygiene false in
/-- One step of a constructor. -/
macro "stp" : tactic => `(tactic| first
  | with_reducible refine W_assert hv ?_
  | ((with_reducible apply W_cByN hv); focus (exact rfl))
  | ((with_reducible apply W_cByK hv); (focus (exact rfl)); (focus (exact rfl)))
  | ((with_reducible apply W_firstC hv); focus (exact rfl))
  | ((with_reducible apply W_cvalueByN hv); focus (exact rfl))
  | ((with_reducible apply W_cvalueByK hv); (focus (exact rfl)); (focus (exact rfl)))
  | ((with_reducible apply W_csByN hv); (focus (exact rfl)); (focus (first | exact Sep.ne (by assumption) | exact List.cons_ne_nil _ _)))
  | ((with_reducible apply W_csByK hv); (focus (exact rfl)); (focus (exact rfl)); (focus (first | exact Sep.ne (by assumption) | exact List.cons_ne_nil _ _)))
  | ((with_reducible apply W_optK hv); (focus (exact rfl)); (focus (exact rfl)))
  | ((with_reducible apply W_optN hv); focus (exact rfl))
  | ((with_reducible apply W_mapK hv); (focus (exact rfl)); (focus (exact rfl)))
  | ((with_reducible apply W_mapV hv); focus (exact rfl))
  | with_reducible refine W_none ?_
  | ((with_reducible apply W_some C hv.sane); (focus (first | assumption | exact (by assumption : ∀ x, _ = some x → SatL _ _ x) _ rfl)); (focus (exact rfl)); (focus (exact rfl)); (focus (exact rfl)); intro _ _)
  | ((with_reducible apply W_opt C hv.sane); (focus (assumption)); (focus (exact rfl)); (focus (exact rfl)); (focus (exact rfl)); intro _ _ _)
  | ((with_reducible apply W_map C hv.sane); (focus (allsat)); (focus (exact rfl)); (focus (exact rfl)); (focus (exact rfl)); intro _ _ _)
  | ((with_reducible apply W_members C hv.sane); (focus (allsat)); (focus (exact rfl)); (focus (exact rfl)); (focus (exact rfl)); intro _ _ _)
  | ((with_reducible apply W_kid C hv.sane); (focus (assumption)); (focus (exact rfl)); (focus (exact rfl)); (focus (exact rfl)); intro _ _)
  | with_reducible refine W_ok ?_)

theorem sx_seqCons {a b : Res2} {f : Loc → Cont} {x : Loc} {xs : List Loc} {k : Cont} (h : Sx a ((x :: xs).flatMap f))
    (hb : Sx b k) : Sx (seqR a b) (f x ++ (xs.flatMap f ++ k)) := by
  rw [← List.append_assoc, ← List.flatMap_cons]
  exact sx_seq h hb

set_option hygiene false in
/-- One element of the content. -/
macro "es1" : tactic => `(tactic| first
  | exact sx_unit
  | exact sx_last (by assumption)
  | assumption
  | refine sx_seq (by assumption) ?_
  | refine sx_seqCons (by assumption) ?_
  | refine sx_none ?_
  | (refine sx_seq (sx_tok (by assumption) ?_) ?_; decide)
  | exact sx_last (sx_tok (by assumption) (by decide))
  | (refine sx_seq (sx_tokV (by assumption)) ?_)
  | (refine sx_seq (sx_tokK (by assumption) ?_) ?_; decide)
  | (refine sx_seq2 (sx_tok2 (by assumption) (by assumption) ?_ ?_ ?_) ?_; decide; decide; decide)
  | (refine sx_seq3 (sx_tok3 (by assumption) (by assumption) (by assumption) ?_ ?_ ?_ ?_) ?_; decide; decide; decide; decide))

theorem items_declaratorsDoc (cm : CMap) (ds : List Prog) : items cm (declaratorsDoc ds) = itemss cm ds := by
  unfold declaratorsDoc
  split <;> flat
  rw [seqR_unit_right]

theorem itemss_spaced (cm : CMap) (o : Option Prog) : itemss cm (spaced o) = itemss cm (opt o) := by
  cases o
  · rfl
  · show itemss cm [t " ", _] = itemss cm [_]
    flat

theorem itemss_isEmpty (cm : CMap) (ds : List Prog) :
    (if ds.isEmpty = true then unit else itemss cm ds) = itemss cm ds := by
  cases ds <;> simp [itemss_nil]

theorem itemss_isEmpty' (cm : CMap) (ds : List Prog) :
    (if ds.isEmpty = true then unit else seqR (itemss cm ds) unit) = itemss cm ds := by
  rw [seqR_unit_right, itemss_isEmpty]

set_option hygiene false in
/-- Compare the members with the content of the children. -/
macro "inn" : tactic => `(tactic| (apply sx_in hv; (focus (exact rfl)); flat; (try simp only [items_declaratorsDoc, itemss_spaced, itemss_isEmpty, itemss_isEmpty', List.flatMap_cons, List.append_assoc, seqR_unit, seqR_assoc]); repeat' es1))

set_option hygiene false in
/-- A node printed with comments and punctuation. -/
macro "fin" : tactic => `(tactic| (refine sx_bwcp C hv ?_ ?_; exact rfl; inn))

end Afmt.Gram
