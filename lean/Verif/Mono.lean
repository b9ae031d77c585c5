import Verif.Ast.Knot

/-!
# A larger stack and missing overflow checks only turn failures into successes

`Below x y`: if `x` succeeds, `y` succeeds with the same value.  Every constructor is monotone in this order in the
constructors it calls and in the build profile.
-/

set_option linter.unusedVariables false

namespace Afmt
open Prog.New

/-- If the first result is a success, so is the second one, with the same value. -/
def Below {α : Type} (x y : R α) : Prop := ∀ v, x = .ok v → y = .ok v

/-- The second profile has no more overflow checks; the comments are the same. -/
structure Laxer (cfg cfg' : Cfg) : Prop where
  cm : cfg'.cm = cfg.cm
  checks : cfg'.checks = true → cfg.checks = true

/-- Constructor calls ordered by `Below`. -/
def BelowRec (rec rec' : Rec) : Prop := ∀ c n, Below (rec c n) (rec' c n)

namespace Below
variable {α β : Type}

theorem call {rec rec' : Rec} (hr : BelowRec rec rec') (c : Cls) (n : Loc) : Below (rec c n) (rec' c n) := hr c n

theorem rfl' {x : R α} : Below x x := fun _ h => h

theorem err {e : Panic} {y : R α} : Below (.error e) y := fun _ h => nomatch h

theorem bind {x y : R α} {f g : α → R β} (h : Below x y) (hf : ∀ a, Below (f a) (g a)) : Below (x >>= f) (y >>= g) := by
  intro v hv
  cases x with
  | error e => cases hv
  | ok a => rw [h a rfl]; exact hf a v hv

theorem map {x y : R α} {f : α → β} (h : Below x y) : Below (f <$> x) (f <$> y) := by
  intro v hv
  cases x with
  | error e => cases hv
  | ok a => rw [h a rfl]; exact hv

theorem optR {f g : α → R β} (o : Option α) (h : ∀ a, Below (f a) (g a)) : Below (optR o f) (optR o g) := by
  cases o with
  | none => exact rfl'
  | some a =>
    intro v hv
    simp only [Afmt.optR] at hv ⊢
    cases hx : f a with
    | error e => rw [hx] at hv; cases hv
    | ok b => rw [h a b hx]; rw [hx] at hv; exact hv

theorem mapR {f g : α → R β} (as : List α) (h : ∀ a, Below (f a) (g a)) : Below (mapR f as) (mapR g as) := by
  induction as with
  | nil => exact rfl'
  | cons a as ih =>
    intro v hv
    simp only [Afmt.mapR] at hv ⊢
    cases hx : f a with
    | error e => rw [hx] at hv; cases hv
    | ok b =>
      rw [h a b hx]; rw [hx] at hv
      cases hy : Afmt.mapR f as with
      | error e => rw [hy] at hv; cases hv
      | ok bs => rw [ih bs hy]; rw [hy] at hv; exact hv

theorem dispatch {rec rec' : Rec} (hr : BelowRec rec rec') (tbl : List (String × Cls)) (n : Loc) :
    Below (dispatch rec tbl n) (dispatch rec' tbl n) := by
  unfold Prog.New.dispatch
  split
  · exact hr _ _
  · exact rfl'

theorem trailing {cfg cfg' : Cfg} (hc : Laxer cfg cfg') (n : Loc) : Below (hasTrailingNewline cfg n) (hasTrailingNewline cfg' n) := by
  unfold hasTrailingNewline
  rw [hc.cm]
  cases getBucket cfg.cm n.id with
  | error e => exact rfl'
  | ok b =>
    simp only
    split
    · exact rfl'
    · split
      · exact rfl'
      · split
        · intro v hv
          cases h : cfg.checks with
          | true => rw [h] at hv; cases hv
          | false =>
            have : cfg'.checks = false := by
              cases h' : cfg'.checks with
              | false => rfl
              | true => rw [hc.checks h'] at h; cases h
            rw [h] at hv; rw [this]; exact hv
        · exact rfl'

theorem bodyMember {cfg cfg' : Cfg} {rec rec' : Rec} (hc : Laxer cfg cfg') (hr : BelowRec rec rec') (c : Cls) (n : Loc) :
    Below (bodyMember cfg rec c n) (bodyMember cfg' rec' c n) := by
  intro v hv
  unfold Prog.New.bodyMember at hv ⊢
  cases hx : rec c n with
  | error e => rw [hx] at hv; cases hv
  | ok p =>
    rw [hr c n p hx]; rw [hx] at hv
    cases hy : hasTrailingNewline cfg n with
    | error e => rw [hy] at hv; cases hv
    | ok t => rw [trailing hc n t hy]; rw [hy] at hv; exact hv

end Below

variable {cfg cfg' : Cfg} {rec rec' : Rec}

set_option hygiene false in
/-- One step of a monotonicity proof. -/
macro "below1" : tactic => `(tactic| first
  | with_reducible exact Below.rfl'
  | with_reducible exact Below.err
  | with_reducible exact Below.call hr _ _
  | with_reducible exact Below.dispatch hr _ _
  | with_reducible exact Below.bodyMember hc hr _ _
  | with_reducible refine Below.optR _ (fun _ => ?_)
  | with_reducible refine Below.mapR _ (fun _ => ?_)
  | with_reducible refine Below.bind ?_ (fun _ => ?_)
  | with_reducible refine Below.map ?_
  | split)

/-- A monotonicity proof. -/
macro "below" : tactic => `(tactic| repeat' below1)

theorem root_below (hc : Laxer cfg cfg') (hr : BelowRec rec rec') (n : Loc) : Below (Prog.New.root cfg rec n) (Prog.New.root cfg' rec' n) := by
  unfold Prog.New.root
  below

theorem classDeclaration_below (hr : BelowRec rec rec') (n : Loc) : Below (Prog.New.classDeclaration rec n) (Prog.New.classDeclaration rec' n) := by
  unfold Prog.New.classDeclaration
  below

theorem methodDeclaration_below (hr : BelowRec rec rec') (n : Loc) : Below (Prog.New.methodDeclaration rec n) (Prog.New.methodDeclaration rec' n) := by
  unfold Prog.New.methodDeclaration
  below

theorem formalParameters_below (hr : BelowRec rec rec') (n : Loc) : Below (Prog.New.formalParameters rec n) (Prog.New.formalParameters rec' n) := by
  unfold Prog.New.formalParameters
  below

theorem formalParameter_below (hr : BelowRec rec rec') (n : Loc) : Below (Prog.New.formalParameter rec n) (Prog.New.formalParameter rec' n) := by
  unfold Prog.New.formalParameter
  below

theorem superClass_below (hr : BelowRec rec rec') (n : Loc) : Below (Prog.New.superClass rec n) (Prog.New.superClass rec' n) := by
  unfold Prog.New.superClass
  below

theorem modifiers_below (hr : BelowRec rec rec') (n : Loc) : Below (Prog.New.modifiers rec n) (Prog.New.modifiers rec' n) := by
  unfold Prog.New.modifiers
  below

theorem modifier_below (hr : BelowRec rec rec') (n : Loc) : Below (Prog.New.modifier rec n) (Prog.New.modifier rec' n) := by
  unfold Prog.New.modifier
  below

theorem annotation_below (hr : BelowRec rec rec') (n : Loc) : Below (Prog.New.annotation rec n) (Prog.New.annotation rec' n) := by
  unfold Prog.New.annotation
  below

theorem annotationKeyValue_below (hr : BelowRec rec rec') (n : Loc) : Below (Prog.New.annotationKeyValue rec n) (Prog.New.annotationKeyValue rec' n) := by
  unfold Prog.New.annotationKeyValue
  below

theorem classBody_below (hc : Laxer cfg cfg') (hr : BelowRec rec rec') (n : Loc) : Below (Prog.New.classBody cfg rec n) (Prog.New.classBody cfg' rec' n) := by
  unfold Prog.New.classBody
  below

theorem fieldDeclaration_below (hr : BelowRec rec rec') (n : Loc) : Below (Prog.New.fieldDeclaration rec n) (Prog.New.fieldDeclaration rec' n) := by
  unfold Prog.New.fieldDeclaration
  below

theorem arrayInitializer_below (hr : BelowRec rec rec') (n : Loc) : Below (Prog.New.arrayInitializer rec n) (Prog.New.arrayInitializer rec' n) := by
  unfold Prog.New.arrayInitializer
  below

theorem assignmentExpression_below (hr : BelowRec rec rec') (n : Loc) : Below (Prog.New.assignmentExpression rec n) (Prog.New.assignmentExpression rec' n) := by
  unfold Prog.New.assignmentExpression
  below

theorem assignmentLeft_below (hr : BelowRec rec rec') (n : Loc) : Below (Prog.New.assignmentLeft rec n) (Prog.New.assignmentLeft rec' n) := by
  unfold Prog.New.assignmentLeft
  below

theorem block_below (hc : Laxer cfg cfg') (hr : BelowRec rec rec') (n : Loc) : Below (Prog.New.block cfg rec n) (Prog.New.block cfg' rec' n) := by
  unfold Prog.New.block
  below

theorem interface_below (hr : BelowRec rec rec') (n : Loc) : Below (Prog.New.interface rec n) (Prog.New.interface rec' n) := by
  unfold Prog.New.interface
  below

theorem typeList_below (hr : BelowRec rec rec') (n : Loc) : Below (Prog.New.typeList rec n) (Prog.New.typeList rec' n) := by
  unfold Prog.New.typeList
  below

theorem objectExpression_below (hr : BelowRec rec rec') (n : Loc) : Below (Prog.New.objectExpression rec n) (Prog.New.objectExpression rec' n) := by
  unfold Prog.New.objectExpression
  below

theorem propertyNavigation_below (hr : BelowRec rec rec') (obj : Loc) : Below (Prog.New.propertyNavigation rec obj) (Prog.New.propertyNavigation rec' obj) := by
  unfold Prog.New.propertyNavigation
  below

theorem methodInvocation_below (hr : BelowRec rec rec') (n : Loc) : Below (Prog.New.methodInvocation rec n) (Prog.New.methodInvocation rec' n) := by
  unfold Prog.New.methodInvocation
  below
  exact propertyNavigation_below hr _

theorem typeArguments_below (hr : BelowRec rec rec') (n : Loc) : Below (Prog.New.typeArguments rec n) (Prog.New.typeArguments rec' n) := by
  unfold Prog.New.typeArguments
  below

theorem argumentList_below (hr : BelowRec rec rec') (n : Loc) : Below (Prog.New.argumentList rec n) (Prog.New.argumentList rec' n) := by
  unfold Prog.New.argumentList
  below

theorem binaryExpression_below (hr : BelowRec rec rec') (n : Loc) : Below (Prog.New.binaryExpression rec n) (Prog.New.binaryExpression rec' n) := by
  unfold Prog.New.binaryExpression
  below

theorem localVariableDeclaration_below (hr : BelowRec rec rec') (n : Loc) : Below (Prog.New.localVariableDeclaration rec n) (Prog.New.localVariableDeclaration rec' n) := by
  unfold Prog.New.localVariableDeclaration
  below

theorem variableDeclarator_below (hr : BelowRec rec rec') (n : Loc) : Below (Prog.New.variableDeclarator rec n) (Prog.New.variableDeclarator rec' n) := by
  unfold Prog.New.variableDeclarator
  below

theorem genericType_below (hr : BelowRec rec rec') (n : Loc) : Below (Prog.New.genericType rec n) (Prog.New.genericType rec' n) := by
  unfold Prog.New.genericType
  below

theorem ifStatement_below (hr : BelowRec rec rec') (n : Loc) : Below (Prog.New.ifStatement rec n) (Prog.New.ifStatement rec' n) := by
  unfold Prog.New.ifStatement
  cases n.tryCByN "alternative" with
  | none =>
    refine .bind .rfl' (fun _ => .bind .rfl' (fun _ => .bind (.call hr _ _) (fun _ => .bind .rfl' (fun _ =>
      .bind (.call hr _ _) (fun _ => .rfl')))))
  | some alt =>
    cases n.children.find? (fun c => c.kind == "else") with
    | none =>
      refine .bind .rfl' (fun _ => .bind .rfl' (fun _ => .bind (.call hr _ _) (fun _ => .bind .rfl' (fun _ =>
        .bind (.call hr _ _) (fun _ => .err)))))
    | some e =>
      refine .bind .rfl' (fun _ => .bind .rfl' (fun _ => .bind (.call hr _ _) (fun _ => .bind .rfl' (fun _ =>
        .bind (.call hr _ _) (fun _ => .bind (.call hr _ _) (fun _ => .bind (.call hr _ _) (fun _ => .rfl')))))))

theorem parenthesizedExpression_below (hr : BelowRec rec rec') (n : Loc) : Below (Prog.New.parenthesizedExpression rec n) (Prog.New.parenthesizedExpression rec' n) := by
  unfold Prog.New.parenthesizedExpression
  below

theorem forInitOption_below (hr : BelowRec rec rec') (n : Loc) : Below (Prog.New.forInitOption rec n) (Prog.New.forInitOption rec' n) := by
  unfold Prog.New.forInitOption
  below

theorem loopBody_below (hr : BelowRec rec rec') (body : Loc) : Below (Prog.New.loopBody rec body) (Prog.New.loopBody rec' body) := by
  unfold Prog.New.loopBody
  below

theorem forStatement_below (hr : BelowRec rec rec') (n : Loc) : Below (Prog.New.forStatement rec n) (Prog.New.forStatement rec' n) := by
  unfold Prog.New.forStatement
  below
  exact loopBody_below hr _

theorem enhancedForStatement_below (hr : BelowRec rec rec') (n : Loc) : Below (Prog.New.enhancedForStatement rec n) (Prog.New.enhancedForStatement rec' n) := by
  unfold Prog.New.enhancedForStatement
  below
  exact loopBody_below hr _

theorem updateExpressionVariant_below (hr : BelowRec rec rec') (n : Loc) : Below (Prog.New.updateExpressionVariant rec n) (Prog.New.updateExpressionVariant rec' n) := by
  unfold Prog.New.updateExpressionVariant
  below

theorem scopedTypeIdentifier_below (hr : BelowRec rec rec') (n : Loc) : Below (Prog.New.scopedTypeIdentifier rec n) (Prog.New.scopedTypeIdentifier rec' n) := by
  unfold Prog.New.scopedTypeIdentifier
  below

theorem constructorDeclaration_below (hr : BelowRec rec rec') (n : Loc) : Below (Prog.New.constructorDeclaration rec n) (Prog.New.constructorDeclaration rec' n) := by
  unfold Prog.New.constructorDeclaration
  below

theorem constructorBody_below (hc : Laxer cfg cfg') (hr : BelowRec rec rec') (n : Loc) : Below (Prog.New.constructorBody cfg rec n) (Prog.New.constructorBody cfg' rec' n) := by
  unfold Prog.New.constructorBody
  below

theorem constructInvocation_below (hr : BelowRec rec rec') (n : Loc) : Below (Prog.New.constructInvocation rec n) (Prog.New.constructInvocation rec' n) := by
  unfold Prog.New.constructInvocation
  below

theorem typeParameters_below (hr : BelowRec rec rec') (n : Loc) : Below (Prog.New.typeParameters rec n) (Prog.New.typeParameters rec' n) := by
  unfold Prog.New.typeParameters
  below

theorem typeParameter_below (hr : BelowRec rec rec') (n : Loc) : Below (Prog.New.typeParameter rec n) (Prog.New.typeParameter rec' n) := by
  unfold Prog.New.typeParameter
  below

theorem objectCreationExpression_below (hr : BelowRec rec rec') (n : Loc) : Below (Prog.New.objectCreationExpression rec n) (Prog.New.objectCreationExpression rec' n) := by
  unfold Prog.New.objectCreationExpression
  below

theorem runAsStatement_below (hr : BelowRec rec rec') (n : Loc) : Below (Prog.New.runAsStatement rec n) (Prog.New.runAsStatement rec' n) := by
  unfold Prog.New.runAsStatement
  below

theorem doStatement_below (hr : BelowRec rec rec') (n : Loc) : Below (Prog.New.doStatement rec n) (Prog.New.doStatement rec' n) := by
  unfold Prog.New.doStatement
  below

theorem whileStatement_below (hr : BelowRec rec rec') (n : Loc) : Below (Prog.New.whileStatement rec n) (Prog.New.whileStatement rec' n) := by
  unfold Prog.New.whileStatement
  below

theorem unaryExpression_below (hr : BelowRec rec rec') (n : Loc) : Below (Prog.New.unaryExpression rec n) (Prog.New.unaryExpression rec' n) := by
  unfold Prog.New.unaryExpression
  below

theorem fieldNavigation_below (hr : BelowRec rec rec') (n : Loc) : Below (Prog.New.fieldNavigation rec n) (Prog.New.fieldNavigation rec' n) := by
  unfold Prog.New.fieldNavigation
  below

theorem fieldAccess_below (hr : BelowRec rec rec') (n : Loc) : Below (Prog.New.fieldAccess rec n) (Prog.New.fieldAccess rec' n) := by
  unfold Prog.New.fieldAccess
  below
  exact fieldNavigation_below hr _

theorem fieldOption_below (hr : BelowRec rec rec') (n : Loc) : Below (Prog.New.fieldOption rec n) (Prog.New.fieldOption rec' n) := by
  unfold Prog.New.fieldOption
  below

theorem enumDeclaration_below (hr : BelowRec rec rec') (n : Loc) : Below (Prog.New.enumDeclaration rec n) (Prog.New.enumDeclaration rec' n) := by
  unfold Prog.New.enumDeclaration
  below

theorem enumBody_below (hr : BelowRec rec rec') (n : Loc) : Below (Prog.New.enumBody rec n) (Prog.New.enumBody rec' n) := by
  unfold Prog.New.enumBody
  below

theorem enumConstant_below (hr : BelowRec rec rec') (n : Loc) : Below (Prog.New.enumConstant rec n) (Prog.New.enumConstant rec' n) := by
  unfold Prog.New.enumConstant
  below

theorem dmlExpressionVariant_below (hr : BelowRec rec rec') (n : Loc) : Below (Prog.New.dmlExpressionVariant rec n) (Prog.New.dmlExpressionVariant rec' n) := by
  unfold Prog.New.dmlExpressionVariant
  below

theorem arrayAccess_below (hr : BelowRec rec rec') (n : Loc) : Below (Prog.New.arrayAccess rec n) (Prog.New.arrayAccess rec' n) := by
  unfold Prog.New.arrayAccess
  below

theorem arrayCreationExpression_below (hr : BelowRec rec rec') (n : Loc) : Below (Prog.New.arrayCreationExpression rec n) (Prog.New.arrayCreationExpression rec' n) := by
  unfold Prog.New.arrayCreationExpression
  below

theorem dimensionsExpr_below (hr : BelowRec rec rec') (n : Loc) : Below (Prog.New.dimensionsExpr rec n) (Prog.New.dimensionsExpr rec' n) := by
  unfold Prog.New.dimensionsExpr
  below

theorem returnStatement_below (hr : BelowRec rec rec') (n : Loc) : Below (Prog.New.returnStatement rec n) (Prog.New.returnStatement rec' n) := by
  unfold Prog.New.returnStatement
  below

theorem ternaryExpression_below (hr : BelowRec rec rec') (n : Loc) : Below (Prog.New.ternaryExpression rec n) (Prog.New.ternaryExpression rec' n) := by
  unfold Prog.New.ternaryExpression
  below

theorem tryStatement_below (hr : BelowRec rec rec') (n : Loc) : Below (Prog.New.tryStatement rec n) (Prog.New.tryStatement rec' n) := by
  unfold Prog.New.tryStatement
  below

theorem catchClause_below (hr : BelowRec rec rec') (n : Loc) : Below (Prog.New.catchClause rec n) (Prog.New.catchClause rec' n) := by
  unfold Prog.New.catchClause
  below

theorem finallyClause_below (hr : BelowRec rec rec') (n : Loc) : Below (Prog.New.finallyClause rec n) (Prog.New.finallyClause rec' n) := by
  unfold Prog.New.finallyClause
  below

theorem staticInitializer_below (hr : BelowRec rec rec') (n : Loc) : Below (Prog.New.staticInitializer rec n) (Prog.New.staticInitializer rec' n) := by
  unfold Prog.New.staticInitializer
  below

theorem interfaceDeclaration_below (hr : BelowRec rec rec') (n : Loc) : Below (Prog.New.interfaceDeclaration rec n) (Prog.New.interfaceDeclaration rec' n) := by
  unfold Prog.New.interfaceDeclaration
  below

theorem extendsInterface_below (hr : BelowRec rec rec') (n : Loc) : Below (Prog.New.extendsInterface rec n) (Prog.New.extendsInterface rec' n) := by
  unfold Prog.New.extendsInterface
  below

theorem interfaceBody_below (hc : Laxer cfg cfg') (hr : BelowRec rec rec') (n : Loc) : Below (Prog.New.interfaceBody cfg rec n) (Prog.New.interfaceBody cfg' rec' n) := by
  unfold Prog.New.interfaceBody
  below

theorem interfaceMember_below (hr : BelowRec rec rec') (n : Loc) : Below (Prog.New.interfaceMember rec n) (Prog.New.interfaceMember rec' n) := by
  unfold Prog.New.interfaceMember
  below

theorem constantDeclaration_below (hr : BelowRec rec rec') (n : Loc) : Below (Prog.New.constantDeclaration rec n) (Prog.New.constantDeclaration rec' n) := by
  unfold Prog.New.constantDeclaration
  below

theorem accessorList_below (hr : BelowRec rec rec') (n : Loc) : Below (Prog.New.accessorList rec n) (Prog.New.accessorList rec' n) := by
  unfold Prog.New.accessorList
  below

theorem accessorDeclaration_below (hr : BelowRec rec rec') (n : Loc) : Below (Prog.New.accessorDeclaration rec n) (Prog.New.accessorDeclaration rec' n) := by
  unfold Prog.New.accessorDeclaration
  below

theorem castExpression_below (hr : BelowRec rec rec') (n : Loc) : Below (Prog.New.castExpression rec n) (Prog.New.castExpression rec' n) := by
  unfold Prog.New.castExpression
  below

theorem throwStatement_below (hr : BelowRec rec rec') (n : Loc) : Below (Prog.New.throwStatement rec n) (Prog.New.throwStatement rec' n) := by
  unfold Prog.New.throwStatement
  below

theorem jump_below (hr : BelowRec rec rec') (n : Loc) (kw : String) : Below (Prog.New.jump rec n kw) (Prog.New.jump rec' n kw) := by
  unfold Prog.New.jump
  below

theorem breakStatement_below (hr : BelowRec rec rec') (n : Loc) : Below (Prog.New.breakStatement rec n) (Prog.New.breakStatement rec' n) := by
  unfold Prog.New.breakStatement
  below
  exact jump_below hr _ _

theorem continueStatement_below (hr : BelowRec rec rec') (n : Loc) : Below (Prog.New.continueStatement rec n) (Prog.New.continueStatement rec' n) := by
  unfold Prog.New.continueStatement
  below
  exact jump_below hr _ _

theorem switchExpression_below (hr : BelowRec rec rec') (n : Loc) : Below (Prog.New.switchExpression rec n) (Prog.New.switchExpression rec' n) := by
  unfold Prog.New.switchExpression
  below

theorem switchBlock_below (hr : BelowRec rec rec') (n : Loc) : Below (Prog.New.switchBlock rec n) (Prog.New.switchBlock rec' n) := by
  unfold Prog.New.switchBlock
  below

theorem switchRule_below (hr : BelowRec rec rec') (n : Loc) : Below (Prog.New.switchRule rec n) (Prog.New.switchRule rec' n) := by
  unfold Prog.New.switchRule
  below

theorem switchLabel_below (hr : BelowRec rec rec') (n : Loc) : Below (Prog.New.switchLabel rec n) (Prog.New.switchLabel rec' n) := by
  unfold Prog.New.switchLabel
  below

theorem whenSObjectType_below (hr : BelowRec rec rec') (n : Loc) : Below (Prog.New.whenSObjectType rec n) (Prog.New.whenSObjectType rec' n) := by
  unfold Prog.New.whenSObjectType
  below

theorem instanceOfExpression_below (hr : BelowRec rec rec') (n : Loc) : Below (Prog.New.instanceOfExpression rec n) (Prog.New.instanceOfExpression rec' n) := by
  unfold Prog.New.instanceOfExpression
  below

theorem versionExpression_below (hr : BelowRec rec rec') (n : Loc) : Below (Prog.New.versionExpression rec n) (Prog.New.versionExpression rec' n) := by
  unfold Prog.New.versionExpression
  below

theorem javaFieldAccess_below (hr : BelowRec rec rec') (n : Loc) : Below (Prog.New.javaFieldAccess rec n) (Prog.New.javaFieldAccess rec' n) := by
  unfold Prog.New.javaFieldAccess
  below

theorem javaType_below (hr : BelowRec rec rec') (n : Loc) : Below (Prog.New.javaType rec n) (Prog.New.javaType rec' n) := by
  unfold Prog.New.javaType
  below

theorem arrayType_below (hr : BelowRec rec rec') (n : Loc) : Below (Prog.New.arrayType rec n) (Prog.New.arrayType rec' n) := by
  unfold Prog.New.arrayType
  below

theorem triggerDeclaration_below (hr : BelowRec rec rec') (n : Loc) : Below (Prog.New.triggerDeclaration rec n) (Prog.New.triggerDeclaration rec' n) := by
  unfold Prog.New.triggerDeclaration
  below

theorem triggerEvent_below (hr : BelowRec rec rec') (n : Loc) : Below (Prog.New.triggerEvent rec n) (Prog.New.triggerEvent rec' n) := by
  unfold Prog.New.triggerEvent
  below

theorem triggerBody_below (hr : BelowRec rec rec') (n : Loc) : Below (Prog.New.triggerBody rec n) (Prog.New.triggerBody rec' n) := by
  unfold Prog.New.triggerBody
  below

theorem queryExpression_below (hr : BelowRec rec rec') (n : Loc) : Below (Prog.New.queryExpression rec n) (Prog.New.queryExpression rec' n) := by
  unfold Prog.New.queryExpression
  below

theorem soslQueryBody_below (hr : BelowRec rec rec') (n : Loc) : Below (Prog.New.soslQueryBody rec n) (Prog.New.soslQueryBody rec' n) := by
  unfold Prog.New.soslQueryBody
  below

theorem findClause_below (hr : BelowRec rec rec') (n : Loc) : Below (Prog.New.findClause rec n) (Prog.New.findClause rec' n) := by
  unfold Prog.New.findClause
  below

theorem inClause_below (hr : BelowRec rec rec') (n : Loc) : Below (Prog.New.inClause rec n) (Prog.New.inClause rec' n) := by
  unfold Prog.New.inClause
  below

theorem returningClause_below (hr : BelowRec rec rec') (n : Loc) : Below (Prog.New.returningClause rec n) (Prog.New.returningClause rec' n) := by
  unfold Prog.New.returningClause
  below

theorem sObjectReturn_below (hr : BelowRec rec rec') (n : Loc) : Below (Prog.New.sObjectReturn rec n) (Prog.New.sObjectReturn rec' n) := by
  unfold Prog.New.sObjectReturn
  below

theorem soqlQueryBody_below (hr : BelowRec rec rec') (n : Loc) : Below (Prog.New.soqlQueryBody rec n) (Prog.New.soqlQueryBody rec' n) := by
  unfold Prog.New.soqlQueryBody
  below

theorem fromClause_below (hr : BelowRec rec rec') (n : Loc) : Below (Prog.New.fromClause rec n) (Prog.New.fromClause rec' n) := by
  unfold Prog.New.fromClause
  below

theorem storageAlias_below (hr : BelowRec rec rec') (n : Loc) : Below (Prog.New.storageAlias rec n) (Prog.New.storageAlias rec' n) := by
  unfold Prog.New.storageAlias
  below

theorem limitClause_below (hr : BelowRec rec rec') (n : Loc) : Below (Prog.New.limitClause rec n) (Prog.New.limitClause rec' n) := by
  unfold Prog.New.limitClause
  below

theorem updateClause_below (hr : BelowRec rec rec') (n : Loc) : Below (Prog.New.updateClause rec n) (Prog.New.updateClause rec' n) := by
  unfold Prog.New.updateClause
  below

theorem boundApexExpression_below (hr : BelowRec rec rec') (n : Loc) : Below (Prog.New.boundApexExpression rec n) (Prog.New.boundApexExpression rec' n) := by
  unfold Prog.New.boundApexExpression
  below

theorem soslUsingClause_below (hr : BelowRec rec rec') (n : Loc) : Below (Prog.New.soslUsingClause rec n) (Prog.New.soslUsingClause rec' n) := by
  unfold Prog.New.soslUsingClause
  below

theorem usingClause_below (hr : BelowRec rec rec') (n : Loc) : Below (Prog.New.usingClause rec n) (Prog.New.usingClause rec' n) := by
  unfold Prog.New.usingClause
  below

theorem usingClauseOption_below (hr : BelowRec rec rec') (n : Loc) : Below (Prog.New.usingClauseOption rec n) (Prog.New.usingClauseOption rec' n) := by
  unfold Prog.New.usingClauseOption
  below

theorem usingScopeClause_below (hr : BelowRec rec rec') (n : Loc) : Below (Prog.New.usingScopeClause rec n) (Prog.New.usingScopeClause rec' n) := by
  unfold Prog.New.usingScopeClause
  below

theorem usingLookupClause_below (hr : BelowRec rec rec') (n : Loc) : Below (Prog.New.usingLookupClause rec n) (Prog.New.usingLookupClause rec' n) := by
  unfold Prog.New.usingLookupClause
  below

theorem usingListviewClause_below (hr : BelowRec rec rec') (n : Loc) : Below (Prog.New.usingListviewClause rec n) (Prog.New.usingListviewClause rec' n) := by
  unfold Prog.New.usingListviewClause
  below

theorem usingLookupBindClause_below (hr : BelowRec rec rec') (n : Loc) : Below (Prog.New.usingLookupBindClause rec n) (Prog.New.usingLookupBindClause rec' n) := by
  unfold Prog.New.usingLookupBindClause
  below

theorem usingLookupBindExpression_below (hr : BelowRec rec rec') (n : Loc) : Below (Prog.New.usingLookupBindExpression rec n) (Prog.New.usingLookupBindExpression rec' n) := by
  unfold Prog.New.usingLookupBindExpression
  below

theorem whereClause_below (hr : BelowRec rec rec') (n : Loc) : Below (Prog.New.whereClause rec n) (Prog.New.whereClause rec' n) := by
  unfold Prog.New.whereClause
  below

theorem comparison_below (hr : BelowRec rec rec') (n : Loc) : Below (Prog.New.comparison rec n) (Prog.New.comparison rec' n) := by
  unfold Prog.New.comparison
  below

theorem comparisonExpression_below (hr : BelowRec rec rec') (n : Loc) : Below (Prog.New.comparisonExpression rec n) (Prog.New.comparisonExpression rec' n) := by
  unfold Prog.New.comparisonExpression
  below

theorem comparableList_below (hr : BelowRec rec rec') (n : Loc) : Below (Prog.New.comparableList rec n) (Prog.New.comparableList rec' n) := by
  unfold Prog.New.comparableList
  below

theorem orderByClause_below (hr : BelowRec rec rec') (n : Loc) : Below (Prog.New.orderByClause rec n) (Prog.New.orderByClause rec' n) := by
  unfold Prog.New.orderByClause
  below

theorem orderExpression_below (hr : BelowRec rec rec') (n : Loc) : Below (Prog.New.orderExpression rec n) (Prog.New.orderExpression rec' n) := by
  unfold Prog.New.orderExpression
  below

theorem subQuery_below (hr : BelowRec rec rec') (n : Loc) : Below (Prog.New.subQuery rec n) (Prog.New.subQuery rec' n) := by
  unfold Prog.New.subQuery
  below

theorem mapCreationExpression_below (hr : BelowRec rec rec') (n : Loc) : Below (Prog.New.mapCreationExpression rec n) (Prog.New.mapCreationExpression rec' n) := by
  unfold Prog.New.mapCreationExpression
  below

theorem mapInitializer_below (hr : BelowRec rec rec') (n : Loc) : Below (Prog.New.mapInitializer rec n) (Prog.New.mapInitializer rec' n) := by
  unfold Prog.New.mapInitializer
  below

theorem mapKeyInitializer_below (hr : BelowRec rec rec') (n : Loc) : Below (Prog.New.mapKeyInitializer rec n) (Prog.New.mapKeyInitializer rec' n) := by
  unfold Prog.New.mapKeyInitializer
  below

theorem groupByClause_below (hr : BelowRec rec rec') (n : Loc) : Below (Prog.New.groupByClause rec n) (Prog.New.groupByClause rec' n) := by
  unfold Prog.New.groupByClause
  below

theorem havingClause_below (hr : BelowRec rec rec') (n : Loc) : Below (Prog.New.havingClause rec n) (Prog.New.havingClause rec' n) := by
  unfold Prog.New.havingClause
  below

theorem soslWithClause_below (hr : BelowRec rec rec') (n : Loc) : Below (Prog.New.soslWithClause rec n) (Prog.New.soslWithClause rec' n) := by
  unfold Prog.New.soslWithClause
  below

theorem soqlWithClause_below (hr : BelowRec rec rec') (n : Loc) : Below (Prog.New.soqlWithClause rec n) (Prog.New.soqlWithClause rec' n) := by
  unfold Prog.New.soqlWithClause
  below

theorem soqlWithTypeVariant_below (hr : BelowRec rec rec') (n : Loc) : Below (Prog.New.soqlWithTypeVariant rec n) (Prog.New.soqlWithTypeVariant rec' n) := by
  unfold Prog.New.soqlWithTypeVariant
  below

theorem soslWithType_below (hr : BelowRec rec rec') (n : Loc) : Below (Prog.New.soslWithType rec n) (Prog.New.soslWithType rec' n) := by
  unfold Prog.New.soslWithType
  below

theorem withDataCatExpression_below (hr : BelowRec rec rec') (n : Loc) : Below (Prog.New.withDataCatExpression rec n) (Prog.New.withDataCatExpression rec' n) := by
  unfold Prog.New.withDataCatExpression
  below

theorem withDataCatFilter_below (hr : BelowRec rec rec') (n : Loc) : Below (Prog.New.withDataCatFilter rec n) (Prog.New.withDataCatFilter rec' n) := by
  unfold Prog.New.withDataCatFilter
  below

theorem withDivisionExpression_below (hr : BelowRec rec rec') (n : Loc) : Below (Prog.New.withDivisionExpression rec n) (Prog.New.withDivisionExpression rec' n) := by
  unfold Prog.New.withDivisionExpression
  below

theorem withSnippetExpression_below (hr : BelowRec rec rec') (n : Loc) : Below (Prog.New.withSnippetExpression rec n) (Prog.New.withSnippetExpression rec' n) := by
  unfold Prog.New.withSnippetExpression
  below

theorem withNetworkExpression_below (hr : BelowRec rec rec') (n : Loc) : Below (Prog.New.withNetworkExpression rec n) (Prog.New.withNetworkExpression rec' n) := by
  unfold Prog.New.withNetworkExpression
  below

theorem withMetadataExpression_below (hr : BelowRec rec rec') (n : Loc) : Below (Prog.New.withMetadataExpression rec n) (Prog.New.withMetadataExpression rec' n) := by
  unfold Prog.New.withMetadataExpression
  below

theorem withSpellCorrectionExpression_below (hr : BelowRec rec rec') (n : Loc) : Below (Prog.New.withSpellCorrectionExpression rec n) (Prog.New.withSpellCorrectionExpression rec' n) := by
  unfold Prog.New.withSpellCorrectionExpression
  below

theorem withPriceBookExpression_below (hr : BelowRec rec rec') (n : Loc) : Below (Prog.New.withPriceBookExpression rec n) (Prog.New.withPriceBookExpression rec' n) := by
  unfold Prog.New.withPriceBookExpression
  below

theorem dottedIdentifier_below (hr : BelowRec rec rec') (n : Loc) : Below (Prog.New.dottedIdentifier rec n) (Prog.New.dottedIdentifier rec' n) := by
  unfold Prog.New.dottedIdentifier
  below

theorem expressionStatement_below (hr : BelowRec rec rec') (n : Loc) : Below (Prog.New.expressionStatement rec n) (Prog.New.expressionStatement rec' n) := by
  unfold Prog.New.expressionStatement
  below

theorem countExpression_below (hr : BelowRec rec rec') (n : Loc) : Below (Prog.New.countExpression rec n) (Prog.New.countExpression rec' n) := by
  unfold Prog.New.countExpression
  below

theorem wrapper_below (hr : BelowRec rec rec') (kind : String) (variant : Cls) (n : Loc) : Below (Prog.New.wrapper rec kind variant n) (Prog.New.wrapper rec' kind variant n) := by
  unfold Prog.New.wrapper
  below

theorem forClause_below (hr : BelowRec rec rec') (n : Loc) : Below (Prog.New.forClause rec n) (Prog.New.forClause rec' n) := by
  unfold Prog.New.forClause
  below

theorem dmlType_below (hr : BelowRec rec rec') (n : Loc) : Below (Prog.New.dmlType rec n) (Prog.New.dmlType rec' n) := by
  unfold Prog.New.dmlType
  below

theorem booleanExpression_below (hr : BelowRec rec rec') (n : Loc) : Below (Prog.New.booleanExpression rec n) (Prog.New.booleanExpression rec' n) := by
  unfold Prog.New.booleanExpression
  below

theorem conditionExpression_below (hr : BelowRec rec rec') (parentOp : Option String) (n : Loc) : Below (Prog.New.conditionExpression rec parentOp n) (Prog.New.conditionExpression rec' parentOp n) := by
  unfold Prog.New.conditionExpression
  below

theorem andExpression_below (hr : BelowRec rec rec') (n : Loc) : Below (Prog.New.andExpression rec n) (Prog.New.andExpression rec' n) := by
  unfold Prog.New.andExpression
  below
  exact conditionExpression_below hr _ _

theorem orExpression_below (hr : BelowRec rec rec') (n : Loc) : Below (Prog.New.orExpression rec n) (Prog.New.orExpression rec' n) := by
  unfold Prog.New.orExpression
  below
  exact conditionExpression_below hr _ _

theorem notExpression_below (hr : BelowRec rec rec') (n : Loc) : Below (Prog.New.notExpression rec n) (Prog.New.notExpression rec' n) := by
  unfold Prog.New.notExpression
  below
  exact conditionExpression_below hr _ _

theorem rootMember_below (hr : BelowRec rec rec') (n : Loc) : Below (Prog.New.rootMember rec n) (Prog.New.rootMember rec' n) := by
  unfold Prog.New.rootMember
  below

theorem classMember_below (hr : BelowRec rec rec') (n : Loc) : Below (Prog.New.classMember rec n) (Prog.New.classMember rec' n) := by
  unfold Prog.New.classMember
  below

theorem unannotatedType_below (hr : BelowRec rec rec') (n : Loc) : Below (Prog.New.unannotatedType rec n) (Prog.New.unannotatedType rec' n) := by
  unfold Prog.New.unannotatedType
  below

theorem simpleType_below (hr : BelowRec rec rec') (n : Loc) : Below (Prog.New.simpleType rec n) (Prog.New.simpleType rec' n) := by
  unfold Prog.New.simpleType
  below

theorem variableInitializer_below (hr : BelowRec rec rec') (n : Loc) : Below (Prog.New.variableInitializer rec n) (Prog.New.variableInitializer rec' n) := by
  unfold Prog.New.variableInitializer
  below

theorem expression_below (hr : BelowRec rec rec') (n : Loc) : Below (Prog.New.expression rec n) (Prog.New.expression rec' n) := by
  unfold Prog.New.expression
  below

theorem primaryExpression_below (hr : BelowRec rec rec') (n : Loc) : Below (Prog.New.primaryExpression rec n) (Prog.New.primaryExpression rec' n) := by
  unfold Prog.New.primaryExpression
  below

theorem classLiteral_below (hr : BelowRec rec rec') (n : Loc) : Below (Prog.New.classLiteral rec n) (Prog.New.classLiteral rec' n) := by
  unfold Prog.New.classLiteral
  below

theorem literal_below (hr : BelowRec rec rec') (n : Loc) : Below (Prog.New.literal rec n) (Prog.New.literal rec' n) := by
  unfold Prog.New.literal
  below

theorem statement_below (hr : BelowRec rec rec') (n : Loc) : Below (Prog.New.statement rec n) (Prog.New.statement rec' n) := by
  unfold Prog.New.statement
  below

theorem type_below (hr : BelowRec rec rec') (n : Loc) : Below (Prog.New.type rec n) (Prog.New.type rec' n) := by
  unfold Prog.New.type
  below

theorem annotationArgumentList_below (hr : BelowRec rec rec') (n : Loc) : Below (Prog.New.annotationArgumentList rec n) (Prog.New.annotationArgumentList rec' n) := by
  unfold Prog.New.annotationArgumentList
  below

theorem selectClauseVariant_below (hr : BelowRec rec rec') (n : Loc) : Below (Prog.New.selectClauseVariant rec n) (Prog.New.selectClauseVariant rec' n) := by
  unfold Prog.New.selectClauseVariant
  below

theorem selectableExpression_below (hr : BelowRec rec rec') (n : Loc) : Below (Prog.New.selectableExpression rec n) (Prog.New.selectableExpression rec' n) := by
  unfold Prog.New.selectableExpression
  below

theorem fieldsExpression_below (hr : BelowRec rec rec') (n : Loc) : Below (Prog.New.fieldsExpression rec n) (Prog.New.fieldsExpression rec' n) := by
  unfold Prog.New.fieldsExpression
  below

theorem aliasExpression_below (hr : BelowRec rec rec') (n : Loc) : Below (Prog.New.aliasExpression rec n) (Prog.New.aliasExpression rec' n) := by
  unfold Prog.New.aliasExpression
  below

theorem fieldIdentifierVariant_below (hr : BelowRec rec rec') (n : Loc) : Below (Prog.New.fieldIdentifierVariant rec n) (Prog.New.fieldIdentifierVariant rec' n) := by
  unfold Prog.New.fieldIdentifierVariant
  below

theorem storageVariant_below (hr : BelowRec rec rec') (n : Loc) : Below (Prog.New.storageVariant rec n) (Prog.New.storageVariant rec' n) := by
  unfold Prog.New.storageVariant
  below

theorem storageIdentifierVariant_below (hr : BelowRec rec rec') (n : Loc) : Below (Prog.New.storageIdentifierVariant rec n) (Prog.New.storageIdentifierVariant rec' n) := by
  unfold Prog.New.storageIdentifierVariant
  below

theorem limitValue_below (hr : BelowRec rec rec') (n : Loc) : Below (Prog.New.limitValue rec n) (Prog.New.limitValue rec' n) := by
  unfold Prog.New.limitValue
  below

theorem valueExpression_below (hr : BelowRec rec rec') (n : Loc) : Below (Prog.New.valueExpression rec n) (Prog.New.valueExpression rec' n) := by
  unfold Prog.New.valueExpression
  below

theorem geoLocationTypeVariant_below (hr : BelowRec rec rec') (n : Loc) : Below (Prog.New.geoLocationTypeVariant rec n) (Prog.New.geoLocationTypeVariant rec' n) := by
  unfold Prog.New.geoLocationTypeVariant
  below

theorem soqlLiteral_below (hr : BelowRec rec rec') (n : Loc) : Below (Prog.New.soqlLiteral rec n) (Prog.New.soqlLiteral rec' n) := by
  unfold Prog.New.soqlLiteral
  below

theorem setValue_below (hr : BelowRec rec rec') (n : Loc) : Below (Prog.New.setValue rec n) (Prog.New.setValue rec' n) := by
  unfold Prog.New.setValue
  below

theorem comparableListValue_below (hr : BelowRec rec rec') (n : Loc) : Below (Prog.New.comparableListValue rec n) (Prog.New.comparableListValue rec' n) := by
  unfold Prog.New.comparableListValue
  below

theorem offsetClause_below (hr : BelowRec rec rec') (n : Loc) : Below (Prog.New.offsetClause rec n) (Prog.New.offsetClause rec' n) := by
  unfold Prog.New.offsetClause
  below

theorem functionExpressionVariant_below (hr : BelowRec rec rec') (n : Loc) : Below (Prog.New.functionExpressionVariant rec n) (Prog.New.functionExpressionVariant rec' n) := by
  unfold Prog.New.functionExpressionVariant
  below

/-- One constructor call. -/
theorem step_below (hc : Laxer cfg cfg') (hr : BelowRec rec rec') : BelowRec (Prog.step cfg rec) (Prog.step cfg' rec') := by
  intro c n
  cases c with
  | root => exact root_below hc hr _
  | classDeclaration => exact classDeclaration_below hr _
  | methodDeclaration => exact methodDeclaration_below hr _
  | formalParameters => exact formalParameters_below hr _
  | formalParameter => exact formalParameter_below hr _
  | superClass => exact superClass_below hr _
  | modifiers => exact modifiers_below hr _
  | modifier => exact modifier_below hr _
  | annotation => exact annotation_below hr _
  | annotationKeyValue => exact annotationKeyValue_below hr _
  | classBody => exact classBody_below hc hr _
  | fieldDeclaration => exact fieldDeclaration_below hr _
  | arrayInitializer => exact arrayInitializer_below hr _
  | assignmentExpression => exact assignmentExpression_below hr _
  | assignmentLeft => exact assignmentLeft_below hr _
  | boolType => exact Below.rfl'
  | block => exact block_below hc hr _
  | interface => exact interface_below hr _
  | typeList => exact typeList_below hr _
  | objectExpression => exact objectExpression_below hr _
  | methodInvocation => exact methodInvocation_below hr _
  | typeArguments => exact typeArguments_below hr _
  | argumentList => exact argumentList_below hr _
  | super => exact Below.rfl'
  | this => exact Below.rfl'
  | binaryExpression => exact binaryExpression_below hr _
  | localVariableDeclaration => exact localVariableDeclaration_below hr _
  | variableDeclarator => exact variableDeclarator_below hr _
  | genericType => exact genericType_below hr _
  | ifStatement => exact ifStatement_below hr _
  | parenthesizedExpression => exact parenthesizedExpression_below hr _
  | forInitOption => exact forInitOption_below hr _
  | forStatement => exact forStatement_below hr _
  | enhancedForStatement => exact enhancedForStatement_below hr _
  | updateExpressionVariant => exact updateExpressionVariant_below hr _
  | scopedTypeIdentifier => exact scopedTypeIdentifier_below hr _
  | constructorDeclaration => exact constructorDeclaration_below hr _
  | constructorBody => exact constructorBody_below hc hr _
  | constructInvocation => exact constructInvocation_below hr _
  | typeParameters => exact typeParameters_below hr _
  | typeParameter => exact typeParameter_below hr _
  | objectCreationExpression => exact objectCreationExpression_below hr _
  | runAsStatement => exact runAsStatement_below hr _
  | doStatement => exact doStatement_below hr _
  | whileStatement => exact whileStatement_below hr _
  | unaryExpression => exact unaryExpression_below hr _
  | fieldAccess => exact fieldAccess_below hr _
  | fieldOption => exact fieldOption_below hr _
  | enumDeclaration => exact enumDeclaration_below hr _
  | enumBody => exact enumBody_below hr _
  | enumConstant => exact enumConstant_below hr _
  | dmlExpressionVariant => exact dmlExpressionVariant_below hr _
  | dmlSecurityMode => exact Below.rfl'
  | dmlTypeVariant => exact Below.rfl'
  | arrayAccess => exact arrayAccess_below hr _
  | arrayCreationExpression => exact arrayCreationExpression_below hr _
  | dimensions => exact Below.rfl'
  | dimensionsExpr => exact dimensionsExpr_below hr _
  | returnStatement => exact returnStatement_below hr _
  | ternaryExpression => exact ternaryExpression_below hr _
  | tryStatement => exact tryStatement_below hr _
  | catchClause => exact catchClause_below hr _
  | finallyClause => exact finallyClause_below hr _
  | staticInitializer => exact staticInitializer_below hr _
  | interfaceDeclaration => exact interfaceDeclaration_below hr _
  | extendsInterface => exact extendsInterface_below hr _
  | interfaceBody => exact interfaceBody_below hc hr _
  | interfaceMember => exact interfaceMember_below hr _
  | constantDeclaration => exact constantDeclaration_below hr _
  | accessorList => exact accessorList_below hr _
  | accessorDeclaration => exact accessorDeclaration_below hr _
  | castExpression => exact castExpression_below hr _
  | throwStatement => exact throwStatement_below hr _
  | breakStatement => exact breakStatement_below hr _
  | continueStatement => exact continueStatement_below hr _
  | switchExpression => exact switchExpression_below hr _
  | switchBlock => exact switchBlock_below hr _
  | switchRule => exact switchRule_below hr _
  | switchLabel => exact switchLabel_below hr _
  | whenSObjectType => exact whenSObjectType_below hr _
  | instanceOfExpression => exact instanceOfExpression_below hr _
  | versionExpression => exact versionExpression_below hr _
  | javaFieldAccess => exact javaFieldAccess_below hr _
  | javaType => exact javaType_below hr _
  | arrayType => exact arrayType_below hr _
  | triggerDeclaration => exact triggerDeclaration_below hr _
  | triggerEvent => exact triggerEvent_below hr _
  | triggerBody => exact triggerBody_below hr _
  | queryExpression => exact queryExpression_below hr _
  | soslQueryBody => exact soslQueryBody_below hr _
  | findClause => exact findClause_below hr _
  | inClause => exact inClause_below hr _
  | returningClause => exact returningClause_below hr _
  | sObjectReturn => exact sObjectReturn_below hr _
  | soqlQueryBody => exact soqlQueryBody_below hr _
  | fromClause => exact fromClause_below hr _
  | storageAlias => exact storageAlias_below hr _
  | limitClause => exact limitClause_below hr _
  | updateClause => exact updateClause_below hr _
  | boundApexExpression => exact boundApexExpression_below hr _
  | soslUsingClause => exact soslUsingClause_below hr _
  | usingSearch => exact Below.rfl'
  | usingClause => exact usingClause_below hr _
  | usingClauseOption => exact usingClauseOption_below hr _
  | usingScopeClause => exact usingScopeClause_below hr _
  | usingLookupClause => exact usingLookupClause_below hr _
  | usingListviewClause => exact usingListviewClause_below hr _
  | usingLookupBindClause => exact usingLookupBindClause_below hr _
  | usingLookupBindExpression => exact usingLookupBindExpression_below hr _
  | whereClause => exact whereClause_below hr _
  | comparisonExpression => exact comparisonExpression_below hr _
  | comparableList => exact comparableList_below hr _
  | orderByClause => exact orderByClause_below hr _
  | orderExpression => exact orderExpression_below hr _
  | subQuery => exact subQuery_below hr _
  | mapCreationExpression => exact mapCreationExpression_below hr _
  | mapInitializer => exact mapInitializer_below hr _
  | mapKeyInitializer => exact mapKeyInitializer_below hr _
  | groupByClause => exact groupByClause_below hr _
  | havingClause => exact havingClause_below hr _
  | soslWithClause => exact soslWithClause_below hr _
  | soqlWithClause => exact soqlWithClause_below hr _
  | soqlWithTypeVariant => exact soqlWithTypeVariant_below hr _
  | soslWithType => exact soslWithType_below hr _
  | withDataCatExpression => exact withDataCatExpression_below hr _
  | withDataCatFilter => exact withDataCatFilter_below hr _
  | withDivisionExpression => exact withDivisionExpression_below hr _
  | withSnippetExpression => exact withSnippetExpression_below hr _
  | withNetworkExpression => exact withNetworkExpression_below hr _
  | withMetadataExpression => exact withMetadataExpression_below hr _
  | withSpellCorrectionExpression => exact withSpellCorrectionExpression_below hr _
  | withPriceBookExpression => exact withPriceBookExpression_below hr _
  | dottedIdentifier => exact dottedIdentifier_below hr _
  | valueNode => exact Below.rfl'
  | valueNodeLowerCase => exact Below.rfl'
  | valueNodeUpperCase => exact Below.rfl'
  | expressionStatement => exact expressionStatement_below hr _
  | safeNavigationOperator => exact Below.rfl'
  | countExpression => exact countExpression_below hr _
  | functionExpression => exact wrapper_below hr _ _ _
  | fieldIdentifier => exact wrapper_below hr _ _ _
  | geoLocationType => exact wrapper_below hr _ _ _
  | selectClause => exact wrapper_below hr _ _ _
  | storageIdentifier => exact wrapper_below hr _ _ _
  | andExpression => exact andExpression_below hr _
  | orExpression => exact orExpression_below hr _
  | notExpression => exact notExpression_below hr _
  | soqlWithType => exact wrapper_below hr _ _ _
  | forClause => exact forClause_below hr _
  | allRowsClause => exact Below.rfl'
  | updateExpression => exact wrapper_below hr _ _ _
  | dmlExpression => exact wrapper_below hr _ _ _
  | dmlType => exact dmlType_below hr _
  | rootMember => exact rootMember_below hr _
  | classMember => exact classMember_below hr _
  | unannotatedType => exact unannotatedType_below hr _
  | simpleType => exact simpleType_below hr _
  | variableInitializer => exact variableInitializer_below hr _
  | expression => exact expression_below hr _
  | primaryExpression => exact primaryExpression_below hr _
  | classLiteral => exact classLiteral_below hr _
  | literal => exact literal_below hr _
  | modifierKind => exact Below.rfl'
  | statement => exact statement_below hr _
  | type => exact type_below hr _
  | annotationArgumentList => exact annotationArgumentList_below hr _
  | triggerEventVariant => exact Below.rfl'
  | selectClauseVariant => exact selectClauseVariant_below hr _
  | selectableExpression => exact selectableExpression_below hr _
  | fieldsExpression => exact fieldsExpression_below hr _
  | aliasExpression => exact aliasExpression_below hr _
  | fieldIdentifierVariant => exact fieldIdentifierVariant_below hr _
  | storageVariant => exact storageVariant_below hr _
  | storageIdentifierVariant => exact storageIdentifierVariant_below hr _
  | limitValue => exact limitValue_below hr _
  | booleanExpression => exact booleanExpression_below hr _
  | conditionExpression => exact conditionExpression_below hr _ _
  | valueExpression => exact valueExpression_below hr _
  | geoLocationTypeVariant => exact geoLocationTypeVariant_below hr _
  | comparison => exact comparison_below hr _
  | soqlLiteral => exact soqlLiteral_below hr _
  | dateLiteralWithParam => exact Below.rfl'
  | setValue => exact setValue_below hr _
  | comparableListValue => exact comparableListValue_below hr _
  | offsetClause => exact offsetClause_below hr _
  | functionExpressionVariant => exact functionExpressionVariant_below hr _

/-- All constructor calls: a deeper stack and fewer checks. -/
theorem new_below (hc : Laxer cfg cfg') : ∀ {d d' : Nat}, d ≤ d' → BelowRec (Prog.new cfg d) (Prog.new cfg' d')
  | 0, _, _ => fun _ _ => .err
  | d + 1, d' + 1, h => step_below hc (new_below hc (Nat.le_of_succ_le_succ h))

end Afmt
