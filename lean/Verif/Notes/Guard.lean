import Verif.Notes.Calls
import Verif.Gram.Main
import Verif.Lines.Frame
import Verif.Mono

/-!
# Line breaks of the program of a conforming tree with comments between members

The constructors only call each other for nodes of the right kinds (`Gram.Call`), so a constructor that is never called
for a member of a body is never called for a node with comments.
-/

set_option linter.unusedSectionVars false

namespace Afmt.Notes
open Afmt.Prog
open Afmt.Gram
open Afmt.Lines (P P_of P_get P_mono P_err TidyTree conf_kinds)

/-! ### Kinds of the nodes a constructor is called for -/

/-- Classes that print a node of any kind. -/
def anyKind : Cls → Bool
  | .valueNode | .valueNodeLowerCase | .valueNodeUpperCase => true
  | _ => false

theorem sub_or (c : Cls) : sub c = [] ∨ kindOf c = [] := by cases c <;> first | exact .inl rfl | exact .inr rfl

theorem conf_kindsOf {n : Node} {c : Cls} (h : conf n (.cls c) = true) (hc : anyKind c = false) : (kindsOf c).contains n.kind = true := by
  have hcore : ∀ d, (NT.cls c).core n.kind = .cls d → anyKind d = false → (kindOf d).contains n.kind = true := by
    intro d hd ha
    refine conf_kinds h (ks := kindOf d) ?_
    rw [hd]
    cases d <;> first | rfl | cases ha
  have e : (NT.cls c).core n.kind = .cls (resolve 5 c n.kind) := rfl
  rw [resolve] at e
  unfold kindsOf
  split at e
  · rename_i x hx
    have hm := List.mem_of_find?_eq_some hx
    have hk := List.find?_some hx
    cases hs : sub c with
    | nil => rw [hs] at hm; cases hm
    | cons y ys =>
      rw [hs] at hm
      simp only [List.contains_eq_mem, decide_eq_true_eq, List.mem_map]
      exact ⟨x, hm, eq_of_beq hk⟩
  · have := hcore c e hc
    rcases sub_or c with h0 | h0
    · rw [h0]; exact this
    · rw [h0] at this; cases this

/-- No kind of the first list is in the second. -/
def apart (xs ys : List String) : Bool := xs.all (fun k => !ys.contains k)

theorem apart_get {xs ys : List String} (h : apart xs ys = true) {k : String} (hk : xs.contains k = true) : ys.contains k = false := by
  have := List.all_eq_true.1 h k (by simpa using hk)
  simpa using this

theorem hush_apart (c : Cls) (h : hush c = true) : apart (kindsOf c) memberKinds = true := by
  cases c <;> first | (cases h; done) | decide +kernel
theorem body_sub (c : Cls) (h : bodyCls c = true) : (kindsOf c).all (bodyKinds.contains ·) = true := by
  cases c <;> first | (cases h; done) | decide +kernel
theorem body_apart (c : Cls) (h : callable c = true) (h1 : passCls c = false) (h2 : bodyCls c = false) :
    apart (kindsOf c) bodyKinds = true := by
  cases c <;> first | (cases h; done) | (cases h1; done) | (cases h2; done) | decide +kernel

theorem reach_in {root : Node} {l : Loc} (h : Reach root l) : In root l := by
  induction h with
  | root => exact .root
  | kid _ _ hx _ ih => exact .child ih hx

section
variable {root : Node} {cm : CMap}

theorem call_in {c : Cls} {l : Loc} {k : Cont} {m : Nat} (h : Call root cm c l k m) : In root l := by
  cases h with
  | node hr => exact reach_in hr
  | variant hr => exact reach_in hr
  | comparison hr => exact reach_in hr
  | forClause hr => exact reach_in hr
  | forDecl hr => exact reach_in hr
  | decl hr => exact reach_in hr
  | forInit hr _ hx => exact .child (reach_in hr) hx

theorem call_conf {c : Cls} {l : Loc} {k : Cont} {m : Nat} (h : Call root cm c l k m) (hc : passCls c = false) :
    conf l.node (.cls c) = true := by
  cases h with
  | node _ _ h => exact h
  | variant _ _ h => exact h
  | comparison => cases hc
  | forClause _ h => exact h
  | forDecl => cases hc
  | decl _ h => exact h
  | forInit => cases hc

theorem call_hush {c : Cls} {l : Loc} {k : Cont} {m : Nat} (h : Call root cm c l k m) (hc : hush c = true) :
    memberKinds.contains l.kind = false := by
  have h1 : passCls c = false := by cases c <;> first | rfl | cases hc
  have h2 : anyKind c = false := by cases c <;> first | rfl | cases hc
  exact apart_get (hush_apart c hc) (conf_kindsOf (call_conf h h1) h2)

theorem call_body {c : Cls} {l : Loc} {k : Cont} {m : Nat} (h : Call root cm c l k m) (h0 : callable c = true) (h1 : passCls c = false) :
    bodyKinds.contains l.kind = bodyCls c := by
  have hf := call_conf h h1
  by_cases ha : anyKind c = true
  · have hb : bodyCls c = false := by cases c <;> first | rfl | cases ha
    rw [hb]
    have hs : spelled l.node = true := by
      have hp : prod ((NT.cls c).core l.node.kind) = .value := by cases c <;> first | (cases ha; done) | rfl
      exact (conf_value hf hp).1
    refine noFrame ?_
    unfold spelled at hs
    simp only [Bool.and_eq_true] at hs
    have hn := hs.1.2
    show frameKinds.contains l.node.kind = false
    cases hl : l.node with
    | mk id kind named extra err field sr er sb eb text children =>
      rw [hl, noBody] at hn
      simp only [Bool.and_eq_true, Bool.not_eq_true'] at hn
      exact hn.1
  · have ha : anyKind c = false := by simpa using ha
    have hk := conf_kindsOf hf ha
    cases hb : bodyCls c with
    | true => exact List.all_eq_true.1 (body_sub c hb) l.node.kind (by simpa using hk)
    | false => exact apart_get (body_apart c h0 h1 hb) hk
end

/-! ### The machine runs through the program of every call -/

variable [K : Src]

/-- Only members of bodies have comments. -/
structure Home [K : Src] (root : Node) : Prop where
  quiet : ∀ n l, In root n → l ∈ n.children → bodyKinds.contains n.kind = false → Quiet l.id
  calm : ∀ l, In root l → memberKinds.contains l.kind = false → Quiet l.id

section
variable {root : Node}

theorem punct_free {k : String} (h : isPunctuationKind k = true) : memberKinds.contains k = false := by
  unfold isPunctuationKind at h
  simp only [Bool.or_eq_true, beq_iff_eq] at h
  rcases h with rfl | rfl <;> decide +kernel

theorem Home.search (H : Home root) : ∀ xs : List Loc, (∀ x ∈ xs, In root x) → QuietO (Punc.search xs)
  | [], _ => quietO_none
  | x :: xs, h => by
    rw [Punc.search]
    split
    · exact Home.search H xs (fun y hy => h y (List.mem_cons_of_mem _ hy))
    · split
      · rename_i hk
        intro p hp
        obtain rfl := Option.some.inj hp
        exact H.calm x (h x List.mem_cons_self) (punct_free hk)
      · exact quietO_none

theorem Home.punc (H : Home root) (l : Loc) (h : In root l) : QuietO (Punc.from l) := H.search _ (fun _ hx => in_right h hx)

theorem Home.inner (H : Home root) (l : Loc) (h : In root l) : QuietO (Punc.fromInner l) := by
  intro p hp
  unfold Punc.fromInner at hp
  rw [Option.map_eq_some_iff] at hp
  obtain ⟨c, hc, rfl⟩ := hp
  exact H.calm c (.child h (List.mem_of_find?_eq_some hc)) (punct_free (List.find?_some (p := fun c : Loc => isPunctuationKind c.kind) hc))

theorem Home.semi (H : Home root) (l : Loc) (h : In root l) (s : Loc) (hs : s ∈ l.children) (hk : s.kind = ";") : Quiet s.id :=
  H.calm s (.child h hs) (by rw [hk]; decide +kernel)

/-- What the program of a class does. -/
def Fine [K : Src] (c : Cls) (l : Loc) (p : Prog) : Prop :=
  match c with
  | .root => T .I [p] .P
  | .annotationArgumentList => T .I [p] .I
  | c => Kid (up (endOf c) (pst l.id)) p

theorem fine_of {c : Cls} {l : Loc} {p : Prog} (h : callable c = true) (hf : Fine c l p) : Kid (up (endOf c) (pst l.id)) p := by
  cases c <;> first | exact hf | cases h

theorem of_fine {c : Cls} {l : Loc} {p : Prog} (h : callable c = true) (hf : Kid (up (endOf c) (pst l.id)) p) : Fine c l p := by
  cases c <;> first | exact hf | cases h

theorem up_mono {a b c : St} (h : b ≤ c) : up a b ≤ up a c := by
  cases a <;> cases b <;> cases c <;> first | decide | exact absurd h (by decide)

theorem Kid_up {a b : St} {p : Prog} (h : a ≤ b) (hk : Kid a p) : Kid b p := by
  unfold Kid T at *
  exact Nat.le_trans hk h

theorem up_quiet {c : Cls} {i : Nat} (h : Quiet i) : up (endOf c) (pst i) = endOf c := by
  rw [pst_quiet h]; cases endOf c <;> rfl

open Classical in
/-- The calls of a smaller measure, as far as they occur. -/
noncomputable def below (root : Node) (cm : CMap) (m : Nat) (rec : Rec) : Rec := fun c l =>
  if ∃ k m', Call root cm c l k m' ∧ m' < m then rec c l else .error .stackOverflow

theorem below_ok {cm : CMap} {m : Nat} {rec : Rec} {c : Cls} {l : Loc} {p : Prog} (h : below root cm m rec c l = .ok p) :
    (∃ k m', Call root cm c l k m' ∧ m' < m) ∧ rec c l = .ok p := by
  unfold below at h
  split at h
  · exact ⟨by assumption, h⟩
  · cases h

theorem below_call {cm : CMap} {m m' : Nat} {rec : Rec} {c : Cls} {l : Loc} {k : Cont} (h : Call root cm c l k m') (hm : m' < m) :
    below root cm m rec c l = rec c l := by
  unfold below
  rw [if_pos ⟨k, m', h, hm⟩]

/-- The state of the children of a node. -/
def kst (n : Loc) : St := if bodyKinds.contains n.kind then .P else .I

theorem env_below {cm : CMap} {m : Nat} {rec : Rec} {n : Loc} (hn : In root n) (T : TidyTree root) (H : Home root)
    (ih : ∀ c l k m', Call root cm c l k m' → m' < m → P (rec c l) (Fine c l)) :
    Env root n (kst n) (below root cm m rec) := by
  have fine : ∀ c l, P (below root cm m rec c l) (fun p => Fine c l p ∧ ∃ k m', Call root cm c l k m') := by
    intro c l
    refine P_of (fun p hp => ?_)
    obtain ⟨⟨k, m', hc, hm⟩, hr⟩ := below_ok hp
    exact ⟨P_get (ih c l k m' hc hm) hr, k, m', hc⟩
  have kids : ∀ l ∈ n.children, pst l.id ≤ kst n := by
    intro l hl
    unfold kst
    split
    · exact pst_le
    · rename_i hb
      rw [pst_quiet (H.quiet n l hn hl (by simpa using hb))]
      exact zero_le
  refine { toTidyTree := T, call := ?_, calm := ?_, near := ?_, self := ?_, args := ?_, kids := kids, punc := H.punc, inner := H.inner,
           semi := H.semi }
  · intro c l hl hc
    refine P_mono (fine c l) (fun p hp => ?_)
    obtain ⟨hf, k, m', hcall⟩ := hp
    have hq := H.calm l hl (call_hush hcall hc)
    have := fine_of (by cases c <;> first | rfl | cases hc) hf
    rwa [up_quiet hq] at this
  · intro c l hl hk hc
    refine P_mono (fine c l) (fun p hp => ?_)
    have := fine_of hc hp.1
    rwa [up_quiet (H.calm l hl hk)] at this
  · intro c l hl hc
    exact P_mono (fine c l) (fun p hp => Kid_up (up_mono (kids l hl)) (fine_of hc hp.1))
  · intro c hc
    exact P_mono (fine c n) (fun p hp => fine_of hc hp.1)
  · intro l _
    exact P_mono (fine .annotationArgumentList l) (fun p hp => hp.1)

theorem kst_call {cm : CMap} {c : Cls} {x : Loc} {k : Cont} {m : Nat} (hc : Call root cm c x k m) (h0 : callable c = true)
    (h : passCls c = false) : kst x = if bodyCls c then .P else .I := by
  unfold kst
  rw [call_body hc h0 h]

theorem call_t {cm : CMap} {cfg : Cfg} (g : Good root cm) (hcm : cfg.cm = cm) (hch : cfg.checks = false) (T : TidyTree root)
    (H : Home root) : ∀ (fuel : Nat) {c : Cls} {x : Loc} {k : Cont} {m : Nat}, Call root cm c x k m → m < fuel →
      P (Prog.new cfg fuel c x) (Fine c x)
  | 0, _, _, _, _, _, h => absurd h (Nat.not_lt_zero _)
  | fuel + 1, c, x, k, m, hc, hm => by
    have hin := call_in hc
    have E : Env root x (kst x) (below root cm m (Prog.new cfg fuel)) := env_below hin T H (fun c' l' k' m' hc' hm' =>
      call_t g hcm hch T H fuel hc' (by omega))
    have hw : W (Bad cfg (fuel + 1) m) (Prog.step cfg (below root cm m (Prog.new cfg fuel)) c x) (fun p => Sx (items cm p) k) := by
      refine step_sx g hcm (fun h => Or.inr ⟨rfl, h⟩) hc ?_
      intro c' x' k' m' hc' hm'
      rw [below_call hc' hm']
      refine W_bad (call_sx g hcm fuel hc') ?_
      rintro e (⟨h1, h2⟩ | h1)
      · exact Or.inl ⟨h1, by omega⟩
      · exact Or.inr h1
    have hok : ∃ p, Prog.step cfg (below root cm m (Prog.new cfg fuel)) c x = .ok p := by
      cases hs : Prog.step cfg (below root cm m (Prog.new cfg fuel)) c x with
      | ok p => exact ⟨p, rfl⟩
      | error e =>
        rw [hs] at hw
        rcases hw with ⟨_, h2⟩ | ⟨_, h2⟩
        · omega
        · rw [hch] at h2; cases h2
    have hfine : P (Prog.step cfg (below root cm m (Prog.new cfg fuel)) c x) (Fine c x) := by
      by_cases h0 : callable c = true
      · refine P_mono (step_t hin E c h0 (kst_call hc h0) (fun hh => H.calm x hin (call_hush hc hh))) (fun p hp => of_fine h0 hp)
      · have hcc : c = .root ∨ c = .annotationArgumentList := by
          cases c <;> first | exact absurd rfl h0 | exact .inl rfl | exact .inr rfl
        rcases hcc with rfl | rfl
        · have hk : x.kind = "parser_output" := by
            have := conf_kindsOf (call_conf hc rfl) rfl
            rw [show kindsOf .root = ["parser_output"] from rfl] at this
            exact List.mem_singleton.1 (List.contains_iff_mem.1 this)
          have hz : kst x = .P := by unfold kst; rw [hk]; rfl
          rw [hz] at E
          exact root_t E hin
        · have hk : x.kind = "annotation_argument_list" := by
            have := conf_kindsOf (call_conf hc rfl) rfl
            rw [show kindsOf .annotationArgumentList = ["annotation_argument_list"] from rfl] at this
            exact List.mem_singleton.1 (List.contains_iff_mem.1 this)
          have hz : kst x = .I := by unfold kst; rw [hk]; rfl
          rw [hz] at E
          exact annotationArgumentList_t E hin (H.calm x hin (by rw [hk]; decide +kernel))
    obtain ⟨p, hp⟩ := hok
    have hb : BelowRec (below root cm m (Prog.new cfg fuel)) (Prog.new cfg fuel) := fun c' l' v hv => (below_ok hv).2
    have hq : Prog.step cfg (Prog.new cfg fuel) c x = .ok p := step_below ⟨rfl, fun h => h⟩ hb c x p hp
    rw [Prog.new]
    refine P_of (fun q hq' => ?_)
    rw [hq, Except.ok.injEq] at hq'
    subst hq'
    exact P_get hfine hp
end

end Afmt.Notes
