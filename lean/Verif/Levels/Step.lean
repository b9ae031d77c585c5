import Verif.Levels.Pass2
import Verif.Gram.Choice

/-!
# Levels of all nodes
-/

namespace Afmt.Levels
open Gram hiding inner full
open Prog New
open Afmt.Lines (All All2 Silent)
open Afmt.Notes (Role Roles bucketOf)

section
variable {root : Node} {ro : Comment → Role} {cm : CMap} {cfg : Cfg} {rec : Rec} {k : Nat} {l : Loc} {m : Nat}

theorem dispatch_lv {c : Cls} {tbl : List (String × Cls)} (L : LCtx root ro cm cfg rec k l m) (hb : Body l)
    (h : conf l.node (.cls c) = true) (hk : (NT.cls c).kinds = some []) (hs : stepwise c = true)
    (ht : (sub c).all (fun e => lvCls e.2 && tbl.find? (fun d => d.1 == e.1) == some e) = true) :
    W Any (dispatch rec tbl l) (Lv ro cm k l) := by
  obtain ⟨e, he, hek, _, hc⟩ := choice h hk hs
  have := List.all_eq_true.1 ht e he
  rw [Bool.and_eq_true, beq_iff_eq, hek] at this
  rw [dispatch, this.2]
  exact L.lv L.ctx.reach this.1 hc hb L.fit

theorem statement_lv (L : LCtx root ro cm cfg rec k l m) (hb : Body l) (h : conf l.node (.cls .statement) = true) :
    W Any (New.statement rec l) (Lv ro cm k l) := by
  obtain ⟨e, he, hek, _⟩ := choice (l := l) h rfl (by decide)
  unfold New.statement
  rw [if_neg]
  · exact dispatch_lv (c := .statement) L hb h rfl (by decide) (by decide)
  · rw [← hek]
    have : (sub .statement).all (fun e => e.1 != ";") = true := by decide
    simpa using List.all_eq_true.1 this e he

/-- Classes of members without bodies. -/
def memberFlat : List Cls :=
  [.expressionStatement, .localVariableDeclaration, .returnStatement, .throwStatement, .breakStatement, .continueStatement,
    .enumDeclaration, .constantDeclaration, .constructInvocation, .valueNode, .valueNodeLowerCase, .valueNodeUpperCase]

/-- The programs of these constructors have the comments of the node around them. -/
theorem member_framed {c : Cls} (h : Own cm l) (hc : memberFlat.contains c = true) : W Any (Prog.step cfg rec c l) (Framed ro cm k l) := by
  simp only [memberFlat, List.contains_iff_mem, List.mem_cons, List.not_mem_nil, or_false] at hc
  rcases hc with rfl | rfl | rfl | rfl | rfl | rfl | rfl | rfl | rfl | rfl | rfl | rfl
  · show W Any (New.expressionStatement rec l) _
    unfold New.expressionStatement
    repeat (refine W_any (fun _ => ?_))
    exact W_ok ⟨_, frame_bwcp h _⟩
  · show W Any (New.localVariableDeclaration rec l) _
    unfold New.localVariableDeclaration
    repeat (refine W_any (fun _ => ?_))
    exact W_ok ⟨_, frame_wcp h none (.inr rfl) _⟩
  · show W Any (New.returnStatement rec l) _
    unfold New.returnStatement
    refine W_any (fun _ => ?_)
    split
    · exact W_ok ⟨_, frame_attached _ _⟩
    · repeat (refine W_any (fun _ => ?_))
      exact W_ok ⟨_, frame_bwcp h _⟩
  · show W Any (New.throwStatement rec l) _
    unfold New.throwStatement
    repeat (refine W_any (fun _ => ?_))
    exact W_ok ⟨_, frame_bwcp h _⟩
  · show W Any (New.breakStatement rec l) _
    unfold New.breakStatement New.jump
    refine W_any (fun _ => ?_)
    split
    · exact W_ok ⟨_, frame_attached _ _⟩
    · repeat (refine W_any (fun _ => ?_))
      exact W_ok ⟨_, frame_bwcp h _⟩
  · show W Any (New.continueStatement rec l) _
    unfold New.continueStatement New.jump
    refine W_any (fun _ => ?_)
    split
    · exact W_ok ⟨_, frame_attached _ _⟩
    · repeat (refine W_any (fun _ => ?_))
      exact W_ok ⟨_, frame_bwcp h _⟩
  · show W Any (New.enumDeclaration rec l) _
    unfold New.enumDeclaration
    repeat (refine W_any (fun _ => ?_))
    exact W_ok ⟨_, frame_bwcp h _⟩
  · show W Any (New.constantDeclaration rec l) _
    unfold New.constantDeclaration
    repeat (refine W_any (fun _ => ?_))
    exact W_ok ⟨_, frame_bwcp h _⟩
  · show W Any (New.constructInvocation rec l) _
    unfold New.constructInvocation
    repeat (refine W_any (fun _ => ?_))
    exact W_ok ⟨_, frame_bwcp h _⟩
  all_goals exact W_ok ⟨_, frame_bwcp h _⟩

theorem step_lv {c : Cls} (L : LCtx root ro cm cfg rec k l m) (hp : lvCls c = true) (h : conf l.node (.cls c) = true) (hb : Body l)
    (hm : 8 * depth l.node + rank c ≤ m) : W Any (Prog.step cfg rec c l) (Lv ro cm k l) := by
  have hpl : plainCls c = true := by cases c <;> first | exact hp | cases hp
  have flat : tall c = false → (memberFlat.contains c || (!Notes.anyKind c && (kindsOf c).all (fun k => !Notes.memberKinds.contains k))) = true →
      W Any (Prog.step cfg rec c l) (Lv ro cm k l) := fun ht hk => by
    have hF : W Any (Prog.step cfg rec c l) (Framed ro cm k l) := by
      rcases L.self.bucket with he | ⟨hm, _⟩
      · exact W_of (fun p => ⟨_, frame_bare he p⟩)
      · cases hc : memberFlat.contains c with
        | true => exact member_framed L.self hc
        | false =>
          exfalso
          rw [hc, Bool.false_or, Bool.and_eq_true] at hk
          have h1 := Notes.conf_kindsOf h (by simpa using hk.1)
          have h2 := List.all_eq_true.1 hk.2 _ (by simpa using h1)
          rw [show l.kind = l.node.kind from rfl] at hm
          rw [hm] at h2
          cases h2
    exact W_with hF (W_mono (step_node L.ctx hpl h hb hm) (fun p hs hF => flat_lv L hs (flat_flowing _ _ h (by simp [flatNT, ht]) L.fit) hF))
  cases c with
  | root => cases hp
  | rootMember => exact dispatch_lv (c := .rootMember) L hb h rfl (by decide) (by decide)
  | classMember => exact dispatch_lv (c := .classMember) L hb h rfl (by decide) (by decide)
  | interfaceMember => exact dispatch_lv (c := .interfaceMember) L hb h rfl (by decide) (by decide)
  | statement => exact statement_lv L hb h
  | classDeclaration => exact classDeclaration_lv L h
  | methodDeclaration => exact methodDeclaration_lv L h
  | classBody => exact classBody_lv L h
  | fieldDeclaration => exact fieldDeclaration_lv L h
  | block => exact block_lv L h
  | ifStatement => exact ifStatement_lv L h
  | forStatement => exact forStatement_lv L hm h
  | enhancedForStatement => exact enhancedForStatement_lv L h
  | constructorDeclaration => exact constructorDeclaration_lv L h
  | constructorBody => exact constructorBody_lv L h
  | runAsStatement => exact runAsStatement_lv L h
  | doStatement => exact doStatement_lv L h
  | whileStatement => exact whileStatement_lv L h
  | tryStatement => exact tryStatement_lv L h
  | catchClause => exact catchClause_lv L h
  | finallyClause => exact finallyClause_lv L h
  | staticInitializer => exact staticInitializer_lv L h
  | interfaceDeclaration => exact interfaceDeclaration_lv L h
  | interfaceBody => exact interfaceBody_lv L h
  | accessorList => exact accessorList_lv L h
  | accessorDeclaration => exact accessorDeclaration_lv L h
  | switchExpression => exact switchExpression_lv L h
  | switchBlock => exact switchBlock_lv L h
  | switchRule => exact switchRule_lv L h
  | triggerDeclaration => exact triggerDeclaration_lv L h
  | triggerBody => exact triggerBody_lv L h
  | _ => exact flat rfl (by decide +kernel)

end

theorem val_fresh {ro : Comment → Role} {cm : CMap} {cfg : Cfg} {k : Nat} (fuel : Nat) {x : Loc} (hf : Fit cm x.node) (hk : x.kind = "else")
    (hb : bucketOf cm x.id = .empty) : W Any (Prog.new cfg fuel .valueNode x) (Fresh ro cm k x) := by
  cases fuel with
  | zero => trivial
  | succ n =>
    intro Y hY i
    have hF : Frame ro cm k x (bwcp x [.txt x.value]) (fun i => markeds ro cm k i [.txt x.value] ++ markeds ro cm k i (punctOpt (Punc.from x))) :=
      fun i => by
        rw [bwcp, marked_wcp]
        have e1 : marked ro cm k i (.pre x.id) = [] := by rw [marked, hb]; rfl
        have e2 : marked ro cm k i (.post x.id) = [] := by rw [marked, hb]; rfl
        rw [e1, e2]
        simp
    have h1 := hY.bare hb i
    have h2 := hF.bare hb i
    obtain ⟨c, cs, ht, hc⟩ := hf.2.2.2 hk
    have e : Y i = markeds ro cm k i [.txt x.value] ++ markeds ro cm k i (punctOpt (Punc.from x)) := h1.symm.trans h2
    rw [e, show x.value = x.node.text from rfl, ht]
    refine .inr (.inl ⟨List.replicate (ink cs).length .chr ++ (markeds ro cm k i (punctOpt (Punc.from x))).flatMap evS, ?_⟩)
    simp [markeds, marked, evS, evT, ink, hc, List.replicate_succ]

/-- Every call for a conforming tree keeps the levels. -/
theorem new_lv {root : Node} {ro : Comment → Role} {cm : CMap} {cfg : Cfg} {k : Nat} (g : Good root cm) (hcm : cfg.cm = cm) (hs : Roles ro cm)
    (ho : ∀ {x}, Reach root x → Own cm x)
    (hst : ∀ (fuel : Nat) {c : Cls} {x : Loc}, Reach root x → starter c = true → conf x.node (.cls c) = true → Body x →
      W Any (Prog.new cfg fuel c x) (Fresh ro cm k x)) :
    ∀ (fuel : Nat) {c : Cls} {x : Loc}, Reach root x → lvCls c = true → conf x.node (.cls c) = true → Body x → All (Fit cm) x.node →
      W Any (Prog.new cfg fuel c x) (Lv ro cm k x)
  | 0, _, _, _, _, _, _, _ => trivial
  | fuel + 1, c, x, hr, hp, h, hb, hf => by
    rw [Prog.new]
    refine step_lv (m := 8 * depth x.node + rank c) ⟨⟨g, hcm, fun _ => trivial, hr, ?_, by omega⟩, hs, ho, hf, ?_, ?_, ?_⟩ hp h hb (Nat.le_refl _)
    · exact fun hc _ => W_bad (call_sx g hcm fuel hc) (fun _ _ => trivial)
    · exact fun hr' hp' h' hb' hf' => new_lv g hcm hs ho hst fuel hr' hp' h' hb' hf'
    · exact fun hr' hc' h' hb' => hst fuel hr' hc' h' hb'
    · exact fun hf' hk' hb' => val_fresh fuel hf' hk' hb'

end Afmt.Levels
