import Verif.Levels.Base

/-!
# Levels of the nodes that end with a body
-/

namespace Afmt.Levels
open Gram Prog New
open Afmt.Lines (All All2)
open Afmt.Notes (Role Roles bucketOf KidsB)

section
variable {root : Node} {ro : Comment → Role} {cm : CMap} {cfg : Cfg} {rec : Rec} {k : Nat} {l : Loc} {m : Nat}

theorem W_loopL {β : Type} (L : LCtx root ro cm cfg rec k l m) (hs : sane l.kind l.node.children = true) {x : Loc}
    (hx : SatL l (kf "body" .statement) x) {K : List Prog → R β} {Q : β → Prop}
    (h : ∀ p, Lv ro cm k x p → W Any (K [t " ", p]) Q) : W Any (loopBody rec x >>= K) Q := by
  refine W_then (P := fun ps => ∃ p, ps = [t " ", p] ∧ Lv ro cm k x p) ?_ ?_
  · unfold loopBody
    refine W_kidL L hs hx rfl rfl rfl ?_
    intro p hp
    refine W_ok ⟨p, ?_, hp⟩
    rw [if_neg (hx.kind_ne rfl)]
  · rintro ps ⟨p, rfl, hp⟩
    exact h p hp

end

set_option hygiene false in
/-- One step of a constructor. -/
macro "lst" : tactic => `(tactic| first
  | with_reducible refine W_assert hv ?_
  | ((with_reducible apply W_cByN hv); focus (exact rfl))
  | ((with_reducible apply W_cByK hv); (focus (exact rfl)); (focus (exact rfl)))
  | ((with_reducible apply W_kidL L hv.sane); (focus (assumption)); (focus (exact rfl)); (focus (exact rfl)); (focus (exact rfl)); intro _ _)
  | ((with_reducible apply W_loopL L hv.sane); (focus (assumption)); intro _ _)
  | ((with_reducible apply W_optK hv); (focus (exact rfl)); (focus (exact rfl)))
  | ((with_reducible apply W_optN hv); focus (exact rfl))
  | ((with_reducible apply W_someL L hv.sane); (focus (assumption)); (focus (exact rfl)); (focus (exact rfl)); (focus (exact rfl)); intro _ _)
  | with_reducible refine W_none ?_
  | with_reducible refine W_any (fun _ => ?_)
  | with_reducible refine W_ok ?_)

section
variable {root : Node} {ro : Comment → Role} {cm : CMap} {cfg : Cfg} {rec : Rec} {k : Nat} {l : Loc} {m : Nat}

theorem view_flowing (hf : All (Fit cm) l.node) {kd : String} {sgs : List (Sg Loc)} (hv : At l kd sgs)
    (hk : layKinds.contains kd = false) (h : flatSgs sgs = true) : flowing l.node = true := by
  refine flow_of (by rw [show l.node.kind = kd from hv.kind]; exact hk) ?_
  intro c hc
  rw [kids_view hf.here.1 (by rw [show l.node.kind = kd from hv.kind]; exact lay_body hk), List.mem_map] at hc
  obtain ⟨x, hx, rfl⟩ := hc
  rw [hv.view.1] at hx
  obtain ⟨a, ha, hs⟩ := segs_sat hv.view.2 h x hx
  exact sat_flowing hs ha (hf.kid (mem_children_node (mem_view.1 hs.2).1))

/-- Nodes that are no members have no comments. -/
theorem calm_bucket (L : LCtx root ro cm cfg rec k l m) {kd : String} {sgs : List (Sg Loc)} (hv : At l kd sgs)
    (hk : Notes.memberKinds.contains kd = false) : bucketOf cm l.id = .empty := by
  refine L.self.bucket.resolve_right (fun h => ?_)
  rw [show l.kind = kd from hv.kind, hk] at h
  cases h.1

set_option hygiene false in
/-- The program of the last child comes last. -/
macro "tailc" : tactic => `(tactic| (intro hs; refine tail_case L hv rfl rfl rfl ?_ hs (by assumption); first | (simp; done) | simp [List.getLast?_append, List.getLast?_cons]))

theorem classDeclaration_lv (L : LCtx root ro cm cfg rec k l m) (h : conf l.node (.cls .classDeclaration) = true) :
    W Any (New.classDeclaration rec l) (Lv ro cm k l) := by
  refine W_with (classDeclaration_sx L.ctx h) ?_
  obtain ⟨x1, h1, x2, h2, x3, h3, x4, h4, x5, h5, x6, h6, x7, h7, hv⟩ := cls_at h rfl rfl rfl
  nrm
  unfold New.classDeclaration
  repeat' lst
  tailc

theorem constructorDeclaration_lv (L : LCtx root ro cm cfg rec k l m) (h : conf l.node (.cls .constructorDeclaration) = true) :
    W Any (New.constructorDeclaration rec l) (Lv ro cm k l) := by
  refine W_with (constructorDeclaration_sx L.ctx h) ?_
  obtain ⟨x1, h1, x2, h2, x3, h3, x4, h4, x5, h5, hv⟩ := cls_at h rfl rfl rfl
  nrm
  unfold New.constructorDeclaration
  repeat' lst
  tailc

theorem interfaceDeclaration_lv (L : LCtx root ro cm cfg rec k l m) (h : conf l.node (.cls .interfaceDeclaration) = true) :
    W Any (New.interfaceDeclaration rec l) (Lv ro cm k l) := by
  refine W_with (interfaceDeclaration_sx L.ctx h) ?_
  obtain ⟨x1, h1, x2, h2, x3, h3, x4, h4, x5, h5, x6, h6, hv⟩ := cls_at h rfl rfl rfl
  nrm
  unfold New.interfaceDeclaration
  repeat' lst
  tailc

theorem staticInitializer_lv (L : LCtx root ro cm cfg rec k l m) (h : conf l.node (.cls .staticInitializer) = true) :
    W Any (New.staticInitializer rec l) (Lv ro cm k l) := by
  refine W_with (staticInitializer_sx L.ctx h) ?_
  obtain ⟨x1, h1, x2, h2, hv⟩ := cls_at h rfl rfl rfl
  nrm
  unfold New.staticInitializer
  repeat' lst
  tailc

theorem triggerDeclaration_lv (L : LCtx root ro cm cfg rec k l m) (h : conf l.node (.cls .triggerDeclaration) = true) :
    W Any (New.triggerDeclaration rec l) (Lv ro cm k l) := by
  refine W_with (triggerDeclaration_sx L.ctx h) ?_
  obtain ⟨x1, h1, x2, h2, x3, h3, x4, h4, x5, h5, x6, y6, h6, x7, h7, x8, h8, hv⟩ := cls_at h rfl rfl rfl
  nrm
  unfold New.triggerDeclaration
  repeat' lst
  tailc

theorem triggerBody_lv (L : LCtx root ro cm cfg rec k l m) (h : conf l.node (.cls .triggerBody) = true) :
    W Any (New.triggerBody rec l) (Lv ro cm k l) := by
  refine W_with (triggerBody_sx L.ctx h) ?_
  obtain ⟨x1, h1, hv⟩ := cls_at h rfl rfl rfl
  nrm
  unfold New.triggerBody
  repeat' lst
  tailc

theorem runAsStatement_lv (L : LCtx root ro cm cfg rec k l m) (h : conf l.node (.cls .runAsStatement) = true) :
    W Any (New.runAsStatement rec l) (Lv ro cm k l) := by
  refine W_with (runAsStatement_sx L.ctx h) ?_
  obtain ⟨x1, h1, x2, h2, x3, h3, hv⟩ := cls_at h rfl rfl rfl
  nrm
  unfold New.runAsStatement
  repeat' lst
  tailc

theorem catchClause_lv (L : LCtx root ro cm cfg rec k l m) (h : conf l.node (.cls .catchClause) = true) :
    W Any (New.catchClause rec l) (Lv ro cm k l) := by
  refine W_with (catchClause_sx L.ctx h) ?_
  obtain ⟨x1, h1, x2, h2, x3, h3, x4, h4, x5, h5, hv⟩ := cls_at h rfl rfl rfl
  nrm
  unfold New.catchClause
  repeat' lst
  tailc

theorem finallyClause_lv (L : LCtx root ro cm cfg rec k l m) (h : conf l.node (.cls .finallyClause) = true) :
    W Any (New.finallyClause rec l) (Lv ro cm k l) := by
  refine W_with (finallyClause_sx L.ctx h) ?_
  obtain ⟨x1, h1, x2, h2, hv⟩ := cls_at h rfl rfl rfl
  nrm
  unfold New.finallyClause
  repeat' lst
  tailc

theorem switchExpression_lv (L : LCtx root ro cm cfg rec k l m) (h : conf l.node (.cls .switchExpression) = true) :
    W Any (New.switchExpression rec l) (Lv ro cm k l) := by
  refine W_with (switchExpression_sx L.ctx h) ?_
  obtain ⟨x1, h1, x2, h2, x3, h3, x4, h4, hv⟩ := cls_at h rfl rfl rfl
  nrm
  unfold New.switchExpression
  repeat' lst
  tailc

theorem switchRule_lv (L : LCtx root ro cm cfg rec k l m) (h : conf l.node (.cls .switchRule) = true) :
    W Any (New.switchRule rec l) (Lv ro cm k l) := by
  refine W_with (switchRule_sx L.ctx h) ?_
  obtain ⟨x1, h1, x2, h2, hv⟩ := cls_at h rfl rfl rfl
  nrm
  unfold New.switchRule
  repeat' lst
  tailc

/-- Members without bodies. -/
theorem flat_case (L : LCtx root ro cm cfg rec k l m) {kd : String} {sgs : List (Sg Loc)} (hv : At l kd sgs)
    (hk : layKinds.contains kd = false) (h : flatSgs sgs = true) {p : Prog} (hs : Sx (items cm p) (full cm l))
    (hF : Framed ro cm k l p) : Lv ro cm k l p := flat_lv L hs (view_flowing L.fit hv hk h) hF

theorem methodDeclaration_lv (L : LCtx root ro cm cfg rec k l m) (h : conf l.node (.cls .methodDeclaration) = true) :
    W Any (New.methodDeclaration rec l) (Lv ro cm k l) := by
  refine W_with (methodDeclaration_sx L.ctx h) ?_
  rcases cls_at h rfl rfl rfl with ⟨x1, h1, x2, h2, x3, h3, x4, h4, x5, h5, hv⟩ | ⟨x1, h1, x2, h2, x3, h3, x4, h4, x5, h5, hv⟩
  · nrm
    unfold New.methodDeclaration
    repeat' lst
    tailc
  · nrm
    unfold New.methodDeclaration
    repeat' lst
    exact fun hs => flat_case L hv rfl rfl hs ⟨_, frame_bwcp L.self _⟩

theorem enhancedForStatement_lv (L : LCtx root ro cm cfg rec k l m) (h : conf l.node (.cls .enhancedForStatement) = true) :
    W Any (New.enhancedForStatement rec l) (Lv ro cm k l) := by
  refine W_with (enhancedForStatement_sx L.ctx h) ?_
  obtain ⟨x1, h1, x2, h2, x3, h3, x4, h4, x5, h5, x6, h6, x7, h7, x8, h8, hv⟩ := cls_at h rfl rfl rfl
  nrm
  unfold New.enhancedForStatement
  repeat' lst
  tailc

theorem forStatement_lv (L : LCtx root ro cm cfg rec k l m) (hm : 8 * depth l.node + 2 ≤ m)
    (h : conf l.node (.cls .forStatement) = true) : W Any (New.forStatement rec l) (Lv ro cm k l) := by
  refine W_with (forStatement_sx L.ctx hm h) ?_
  rcases cls_at h rfl rfl rfl with ⟨x1, h1, x2, h2, x3, h3, x4, h4, x5, h5, x6, h6, x7, h7, x8, h8, hv⟩ |
    ⟨x1, h1, x2, h2, x3, h3, x4, h4, x6, h6, x7, h7, x8, h8, hv⟩ |
    ⟨x1, h1, x2, h2, x3, y3, h3, x5, h5, x4, h4, x9, h9, x6, h6, x7, h7, x8, h8, hv⟩ |
    ⟨x1, h1, x2, h2, x3, h3, x4, h4, x5, h5, x6, h6, x7, h7, x8, h8, hv⟩ |
    ⟨x1, h1, x2, h2, x3, h3, x4, h4, x6, h6, x7, h7, x8, h8, hv⟩
  all_goals
    nrm
    unfold New.forStatement
    repeat' lst
    tailc

theorem whileStatement_lv (L : LCtx root ro cm cfg rec k l m) (h : conf l.node (.cls .whileStatement) = true) :
    W Any (New.whileStatement rec l) (Lv ro cm k l) := by
  refine W_with (whileStatement_sx L.ctx h) ?_
  obtain ⟨x1, h1, x2, h2, x3, h3, hv⟩ := cls_at h rfl rfl rfl
  nrm
  unfold New.whileStatement
  repeat' lst
  rw [if_neg (h3.kind_ne rfl)]
  intro hs
  exact tail_quiet L hv rfl rfl rfl rfl rfl (frame_bwc _) hs (by assumption)

/-- A program without punctuation, ending with the last child. -/
theorem quiet_wcp (L : LCtx root ro cm cfg rec k l m) {kd : String} {sgs : List (Sg Loc)} (hv : At l kd sgs)
    (hk : layKinds.contains kd = false) {a : Atom} {x : Loc} (hlast : sgs.getLast? = some (.one a x))
    (hinit : flatSgs sgs.dropLast = true) (hq : quietKinds.contains kd = true) {ms : List Prog} {q : Prog}
    (hm : ms.getLast? = some q) (hs : Sx (items cm (withCommentsAndPunc l.id none ms)) (full cm l)) (hlv : Lv ro cm k x q) :
    Lv ro cm k l (withCommentsAndPunc l.id none ms) := by
  refine tail_quiet L hv hk hlast hinit hq hm ?_ hs hlv
  have h := frame_wcp (ro := ro) (k := k) L.self none (.inr rfl) ms
  intro i
  have := h i
  simpa [punctOpt, markeds] using this

theorem accessorDeclaration_lv (L : LCtx root ro cm cfg rec k l m) (h : conf l.node (.cls .accessorDeclaration) = true) :
    W Any (New.accessorDeclaration rec l) (Lv ro cm k l) := by
  refine W_with (accessorDeclaration_sx L.ctx h) ?_
  rcases cls_at h rfl rfl rfl with ⟨x1, h1, x2, h2, x3, h3, hv⟩ | ⟨x1, h1, x2, h2, x3, h3, hv⟩
  · nrm
    unfold New.accessorDeclaration
    repeat' lst
    rw [Punc.fromInner, get_findPunct hv.plain hv.view (rfl : findSg pT _ = some none)]
    intro hs
    refine quiet_wcp L hv rfl rfl rfl rfl ?_ hs (by assumption)
    simp [List.getLast?_append, List.getLast?_cons]
  · nrm
    exact W_of (fun p hs => flat_case L hv rfl rfl hs ⟨_, frame_bare (calm_bucket L hv rfl) p⟩)

theorem fieldDeclaration_lv (L : LCtx root ro cm cfg rec k l m) (h : conf l.node (.cls .fieldDeclaration) = true) :
    W Any (New.fieldDeclaration rec l) (Lv ro cm k l) := by
  refine W_with (fieldDeclaration_sx L.ctx h) ?_
  rcases cls_at h rfl rfl rfl with ⟨x1, h1, x2, h2, x3, y3, h3, x4, h4, hv⟩ | ⟨x1, h1, x2, h2, x3, y3, h3, x4, h4, hv⟩
  · nrm
    unfold New.fieldDeclaration
    repeat' lst
    exact fun hs => flat_case L hv rfl rfl hs ⟨_, frame_bwcp L.self _⟩
  · nrm
    unfold New.fieldDeclaration
    repeat' lst
    tailc

end
end Afmt.Levels
