import Verif.Ends.Calls
import Verif.Notes.Guard

/-!
# Ends of lines of the program of a conforming tree with comments between members
-/

set_option linter.unusedSectionVars false

namespace Afmt.Ends
open Afmt.Prog
open Afmt.Gram
open Afmt.Lines (P P_of P_get P_mono P_err callable)
open Afmt.Notes (Quiet hush bodyCls passCls Home below below_ok below_call call_in call_conf call_hush call_body conf_kindsOf)
open Afmt.Trail (Gate plainly ledCls)

variable [Gate] [K : Fair] {root : Node}

/-- What the program of a class does. -/
def Does [Gate] [K : Fair] (c : Cls) (l : Loc) (p : Prog) : Prop :=
  match c with
  | .root => T .N [p] .B
  | .annotationArgumentList => T .N [p] .N
  | c => if ledCls c then Quiet l.id → Led p else Kid (up (endOf c) (pst l.id)) p

theorem does_of {c : Cls} {l : Loc} {p : Prog} (h : plainly c = true) (hf : Does c l p) : Kid (up (endOf c) (pst l.id)) p := by
  cases c <;> first | exact hf | cases h
theorem of_does {c : Cls} {l : Loc} {p : Prog} (h : plainly c = true) (hf : Kid (up (endOf c) (pst l.id)) p) : Does c l p := by
  cases c <;> first | exact hf | cases h
theorem led_of {c : Cls} {l : Loc} {p : Prog} (h : ledCls c = true) (hf : Does c l p) : Quiet l.id → Led p := by
  cases c <;> first | exact hf | cases h
theorem of_led {c : Cls} {l : Loc} {p : Prog} (h : ledCls c = true) (hf : Quiet l.id → Led p) : Does c l p := by
  cases c <;> first | exact hf | cases h

theorem up_mono {a b c : St} (h : b ≤ c) : up a b ≤ up a c := by
  cases a <;> cases b <;> cases c <;> first | decide | exact absurd h (by decide)

theorem up_quiet {c : Cls} {i : Nat} (h : pst i = .N) : up (endOf c) (pst i) = endOf c := by
  rw [h]; cases endOf c <;> rfl

/-- The state of the children of a node. -/
def kst (n : Loc) : St := if bodyKinds.contains n.kind then .Q else .N

/-- No comment follows an explicit constructor call that is alone in its body. -/
def Lone [Gate] [K : Fair] (root : Node) : Prop :=
  ∀ n, In root n → ∀ c, n.childrenVec = [c] → c.kind = "explicit_constructor_invocation" → pst c.id = .N

theorem env_below {cm : CMap} {m : Nat} {rec : Rec} {n : Loc} (hn : In root n) (T : Fit root) (H : Home root) (L : Lone root)
    (ih : ∀ c l k m', Call root cm c l k m' → m' < m → P (rec c l) (Does c l)) :
    Env root n (kst n) (below root cm m rec) := by
  have fine : ∀ c l, P (below root cm m rec c l) (fun p => Does c l p ∧ ∃ k m', Call root cm c l k m') := by
    intro c l
    refine P_of (fun p hp => ?_)
    obtain ⟨⟨k, m', hc, hm⟩, hr⟩ := below_ok hp
    exact ⟨P_get (ih c l k m' hc hm) hr, k, m', hc⟩
  have kids : ∀ l ∈ n.children, pst l.id ≤ kst n := by
    intro l hl
    unfold kst
    split
    · exact pst_le
    · rename_i hb
      rw [pst_quiet (H.quiet n l hn hl (by simpa using hb))]
      exact St.N_le _
  refine { toFit := T, call := ?_, calm := ?_, near := ?_, own := ?_, lone := L n hn, self := ?_, led := ?_, ledSelf := ?_, args := ?_,
           kids := kids, punc := H.punc, inner := H.inner, semi := H.semi }
  · intro c l hl hc hp
    refine P_mono (fine c l) (fun p hp' => ?_)
    obtain ⟨hf, k, m', hcall⟩ := hp'
    have hq := H.calm l hl (call_hush hcall hc)
    have := does_of hp hf
    rwa [up_quiet (pst_quiet hq)] at this
  · intro c l hl hk hc
    refine P_mono (fine c l) (fun p hp => ?_)
    have := does_of hc hp.1
    rwa [up_quiet (pst_quiet (H.calm l hl hk))] at this
  · intro c l hl hc
    exact P_mono (fine c l) (fun p hp => Kid_le (does_of hc hp.1) (up_mono (kids l hl)))
  · intro c l hl hq hc
    refine P_mono (fine c l) (fun p hp => ?_)
    have := does_of hc hp.1
    rwa [up_quiet hq] at this
  · intro c hc
    exact P_mono (fine c n) (fun p hp => does_of hc hp.1)
  · intro c l hl hc hd
    refine P_mono (fine c l) (fun p hp' => ?_)
    obtain ⟨hf, k, m', hcall⟩ := hp'
    exact led_of hd hf (H.calm l hl (call_hush hcall hc))
  · intro c hc hq
    exact P_mono (fine c n) (fun p hp => led_of hc hp.1 hq)
  · intro l _
    exact P_mono (fine .annotationArgumentList l) (fun p hp => hp.1)

theorem kst_call {cm : CMap} {c : Cls} {x : Loc} {k : Cont} {m : Nat} (hc : Call root cm c x k m) (h0 : callable c = true)
    (h : passCls c = false) : kst x = if bodyCls c then .Q else .N := by
  unfold kst
  rw [call_body hc h0 h]

theorem call_t {cm : CMap} {cfg : Cfg} (g : Good root cm) (hcm : cfg.cm = cm) (hch : cfg.checks = false) (T : Fit root)
    (H : Home root) (L : Lone root) : ∀ (fuel : Nat) {c : Cls} {x : Loc} {k : Cont} {m : Nat}, Call root cm c x k m → m < fuel →
      P (Prog.new cfg fuel c x) (Does c x)
  | 0, _, _, _, _, _, h => absurd h (Nat.not_lt_zero _)
  | fuel + 1, c, x, k, m, hc, hm => by
    have hin := call_in hc
    have E : Env root x (kst x) (below root cm m (Prog.new cfg fuel)) := env_below hin T H L (fun c' l' k' m' hc' hm' =>
      call_t g hcm hch T H L fuel hc' (by omega))
    have hw : W (Bad cfg (fuel + 1) m) (Prog.step cfg (below root cm m (Prog.new cfg fuel)) c x) (fun p => Sx (items cm p) k) := by
      refine step_sx g hcm (fun h => Or.inr ⟨rfl, h⟩) hc ?_
      intro c' x' k' m' hc' hm'
      rw [below_call hc' hm']
      refine W_bad (call_sx g hcm fuel hc') ?_
      rintro e (⟨h1, h2⟩ | h1)
      · exact Or.inl ⟨h1, by omega⟩
      · exact Or.inr h1
    have hok : ∃ p, Prog.step cfg (below root cm m (Prog.new cfg fuel)) c x = .ok p := by
      cases hs : Prog.step cfg (below root cm m (Prog.new cfg fuel)) c x with
      | ok p => exact ⟨p, rfl⟩
      | error e =>
        rw [hs] at hw
        rcases hw with ⟨_, h2⟩ | ⟨_, h2⟩
        · omega
        · rw [hch] at h2; cases h2
    have hfine : P (Prog.step cfg (below root cm m (Prog.new cfg fuel)) c x) (Does c x) := by
      by_cases h0 : callable c = true
      · by_cases hl : ledCls c = true
        · by_cases hq : Quiet x.id
          · exact P_mono (led_t hin E c hl (kst_call hc h0) hq) (fun p hp => of_led hl (fun _ => hp))
          · exact P_of (fun p _ => of_led hl (fun h => absurd h hq))
        · have hp : plainly c = true := by unfold plainly; rw [h0]; simpa using hl
          exact P_mono (step_t hin E c (fun h => (conf_node (call_conf hc h)).1) hp (kst_call hc h0) (fun hh => H.calm x hin (call_hush hc hh))) (fun p h' => of_does hp h')
      · have hcc : c = .root ∨ c = .annotationArgumentList := by
          cases c <;> first | exact absurd rfl h0 | exact .inl rfl | exact .inr rfl
        rcases hcc with rfl | rfl
        · have hk : x.kind = "parser_output" := by
            have := conf_kindsOf (call_conf hc rfl) rfl
            rw [show kindsOf .root = ["parser_output"] from rfl] at this
            exact List.mem_singleton.1 (List.contains_iff_mem.1 this)
          have hz : kst x = .Q := by unfold kst; rw [hk]; rfl
          rw [hz] at E
          exact root_t E hin
        · have hk : x.kind = "annotation_argument_list" := by
            have := conf_kindsOf (call_conf hc rfl) rfl
            rw [show kindsOf .annotationArgumentList = ["annotation_argument_list"] from rfl] at this
            exact List.mem_singleton.1 (List.contains_iff_mem.1 this)
          have hz : kst x = .N := by unfold kst; rw [hk]; rfl
          rw [hz] at E
          exact annotationArgumentList_t E hin (H.calm x hin (by rw [hk]; decide +kernel))
    obtain ⟨p, hp⟩ := hok
    have hb : BelowRec (below root cm m (Prog.new cfg fuel)) (Prog.new cfg fuel) := fun c' l' v hv => (below_ok hv).2
    have hq : Prog.step cfg (Prog.new cfg fuel) c x = .ok p := step_below ⟨rfl, fun h => h⟩ hb c x p hp
    rw [Prog.new]
    refine P_of (fun q hq' => ?_)
    rw [hq, Except.ok.injEq] at hq'
    subst hq'
    exact P_get hfine hp

end Afmt.Ends
