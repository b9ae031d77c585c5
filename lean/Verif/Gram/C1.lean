import Verif.Gram.Tac

/-!
# The printed content of nodes: productions read and printed child by child

One theorem per constructor: on a node that conforms to its production the constructor succeeds, or the failure is
one of the accepted ones, and the items of the printed program are the content of the node with the punctuation
that follows it.
-/

namespace Afmt.Gram
open Prog New
set_option maxRecDepth 10000
section
variable {root : Node} {cm : CMap} {cfg : Cfg} {bad : Panic → Prop} {rec : Rec} {l : Loc} {m : Nat}

theorem superClass_sx (C : Ctx root cm cfg bad rec l m) (h : conf l.node (.cls .superClass) = true) :
    W bad (New.superClass rec l) (fun p => Sx (items cm p) (full cm l)) := by
  obtain ⟨x1, h1, x2, h2, hv⟩ := cls_at h rfl rfl rfl
  nrm
  unfold New.superClass
  repeat' stp
  fin

theorem classDeclaration_sx (C : Ctx root cm cfg bad rec l m) (h : conf l.node (.cls .classDeclaration) = true) :
    W bad (New.classDeclaration rec l) (fun p => Sx (items cm p) (full cm l)) := by
  obtain ⟨x1, h1, x2, h2, x3, h3, x4, h4, x5, h5, x6, h6, x7, h7, hv⟩ := cls_at h rfl rfl rfl
  nrm
  unfold New.classDeclaration
  repeat' stp
  fin

theorem methodDeclaration_sx (C : Ctx root cm cfg bad rec l m) (h : conf l.node (.cls .methodDeclaration) = true) :
    W bad (New.methodDeclaration rec l) (fun p => Sx (items cm p) (full cm l)) := by
  rcases cls_at h rfl rfl rfl with ⟨x1, h1, x2, h2, x3, h3, x4, h4, x5, h5, hv⟩ | ⟨x1, h1, x2, h2, x3, h3, x4, h4, x5, h5, hv⟩
  · nrm
    unfold New.methodDeclaration
    repeat' stp
    fin
  · nrm
    unfold New.methodDeclaration
    repeat' stp
    fin

theorem formalParameters_sx (C : Ctx root cm cfg bad rec l m) (h : conf l.node (.cls .formalParameters) = true) :
    W bad (New.formalParameters rec l) (fun p => Sx (items cm p) (full cm l)) := by
  obtain ⟨x1, h1, x2, y2, h2, x3, h3, hv⟩ := cls_at h rfl rfl rfl
  nrm
  unfold New.formalParameters
  repeat' stp
  fin

theorem formalParameter_sx (C : Ctx root cm cfg bad rec l m) (h : conf l.node (.cls .formalParameter) = true) :
    W bad (New.formalParameter rec l) (fun p => Sx (items cm p) (full cm l)) := by
  obtain ⟨x1, h1, x2, h2, x3, h3, x4, h4, hv⟩ := cls_at h rfl rfl rfl
  nrm
  unfold New.formalParameter
  repeat' stp
  rename_i o _ _
  cases o
  · fin
  · fin

theorem modifier_sx (C : Ctx root cm cfg bad rec l m) (h : conf l.node (.cls .modifier) = true) :
    W bad (New.modifier rec l) (fun p => Sx (items cm p) (full cm l)) := by
  obtain ⟨x1, h1, hv⟩ := cls_at h rfl rfl rfl
  nrm
  unfold New.modifier
  repeat' stp
  fin

theorem annotationKeyValue_sx (C : Ctx root cm cfg bad rec l m) (h : conf l.node (.cls .annotationKeyValue) = true) :
    W bad (New.annotationKeyValue rec l) (fun p => Sx (items cm p) (full cm l)) := by
  obtain ⟨x1, h1, x2, h2, x3, h3, hv⟩ := cls_at h rfl rfl rfl
  nrm
  unfold New.annotationKeyValue
  repeat' stp
  fin

theorem fieldDeclaration_sx (C : Ctx root cm cfg bad rec l m) (h : conf l.node (.cls .fieldDeclaration) = true) :
    W bad (New.fieldDeclaration rec l) (fun p => Sx (items cm p) (full cm l)) := by
  rcases cls_at h rfl rfl rfl with ⟨x1, h1, x2, h2, x3, y3, h3, x4, h4, hv⟩ | ⟨x1, h1, x2, h2, x3, y3, h3, x4, h4, hv⟩
  · nrm
    unfold New.fieldDeclaration
    repeat' stp
    fin
  · nrm
    unfold New.fieldDeclaration
    repeat' stp
    fin

theorem arrayInitializer_sx (C : Ctx root cm cfg bad rec l m) (h : conf l.node (.cls .arrayInitializer) = true) :
    W bad (New.arrayInitializer rec l) (fun p => Sx (items cm p) (full cm l)) := by
  rcases cls_at h rfl rfl rfl with ⟨x1, h1, x2, y2, h2, x3, h3, hv⟩ | ⟨x1, h1, x2, y2, h2, x3, h3, x4, h4, hv⟩
  · nrm
    unfold New.arrayInitializer
    repeat' stp
    fin
  · nrm
    unfold New.arrayInitializer
    repeat' stp
    fin

theorem assignmentExpression_sx (C : Ctx root cm cfg bad rec l m) (h : conf l.node (.cls .assignmentExpression) = true) :
    W bad (New.assignmentExpression rec l) (fun p => Sx (items cm p) (full cm l)) := by
  obtain ⟨x1, h1, x2, h2, x3, h3, hv⟩ := cls_at h rfl rfl rfl
  nrm
  unfold New.assignmentExpression
  repeat' stp
  fin

theorem interface_sx (C : Ctx root cm cfg bad rec l m) (h : conf l.node (.cls .interface) = true) :
    W bad (New.interface rec l) (fun p => Sx (items cm p) (full cm l)) := by
  obtain ⟨x1, h1, x2, h2, hv⟩ := cls_at h rfl rfl rfl
  nrm
  unfold New.interface
  repeat' stp
  fin

theorem typeList_sx (C : Ctx root cm cfg bad rec l m) (h : conf l.node (.cls .typeList) = true) :
    W bad (New.typeList rec l) (fun p => Sx (items cm p) (full cm l)) := by
  obtain ⟨x1, y1, h1, hv⟩ := cls_at h rfl rfl rfl
  nrm
  unfold New.typeList
  repeat' stp
  fin

theorem typeArguments_sx (C : Ctx root cm cfg bad rec l m) (h : conf l.node (.cls .typeArguments) = true) :
    W bad (New.typeArguments rec l) (fun p => Sx (items cm p) (full cm l)) := by
  obtain ⟨x1, h1, x2, y2, h2, x3, h3, hv⟩ := cls_at h rfl rfl rfl
  nrm
  unfold New.typeArguments
  repeat' stp
  fin

theorem argumentList_sx (C : Ctx root cm cfg bad rec l m) (h : conf l.node (.cls .argumentList) = true) :
    W bad (New.argumentList rec l) (fun p => Sx (items cm p) (full cm l)) := by
  obtain ⟨x1, h1, x2, y2, h2, x3, h3, hv⟩ := cls_at h rfl rfl rfl
  nrm
  unfold New.argumentList
  repeat' stp
  fin

theorem parenthesizedExpression_sx (C : Ctx root cm cfg bad rec l m) (h : conf l.node (.cls .parenthesizedExpression) = true) :
    W bad (New.parenthesizedExpression rec l) (fun p => Sx (items cm p) (full cm l)) := by
  obtain ⟨x1, h1, x2, h2, x3, h3, hv⟩ := cls_at h rfl rfl rfl
  nrm
  unfold New.parenthesizedExpression
  repeat' stp
  fin

theorem constructorDeclaration_sx (C : Ctx root cm cfg bad rec l m) (h : conf l.node (.cls .constructorDeclaration) = true) :
    W bad (New.constructorDeclaration rec l) (fun p => Sx (items cm p) (full cm l)) := by
  obtain ⟨x1, h1, x2, h2, x3, h3, x4, h4, x5, h5, hv⟩ := cls_at h rfl rfl rfl
  nrm
  unfold New.constructorDeclaration
  repeat' stp
  fin

theorem typeParameters_sx (C : Ctx root cm cfg bad rec l m) (h : conf l.node (.cls .typeParameters) = true) :
    W bad (New.typeParameters rec l) (fun p => Sx (items cm p) (full cm l)) := by
  obtain ⟨x1, h1, x2, y2, h2, x3, h3, hv⟩ := cls_at h rfl rfl rfl
  nrm
  unfold New.typeParameters
  repeat' stp
  fin

theorem objectCreationExpression_sx (C : Ctx root cm cfg bad rec l m) (h : conf l.node (.cls .objectCreationExpression) = true) :
    W bad (New.objectCreationExpression rec l) (fun p => Sx (items cm p) (full cm l)) := by
  obtain ⟨x1, h1, x2, h2, x3, h3, x4, h4, x5, h5, hv⟩ := cls_at h rfl rfl rfl
  nrm
  unfold New.objectCreationExpression
  repeat' stp
  fin

theorem runAsStatement_sx (C : Ctx root cm cfg bad rec l m) (h : conf l.node (.cls .runAsStatement) = true) :
    W bad (New.runAsStatement rec l) (fun p => Sx (items cm p) (full cm l)) := by
  obtain ⟨x1, h1, x2, h2, x3, h3, hv⟩ := cls_at h rfl rfl rfl
  nrm
  unfold New.runAsStatement
  repeat' stp
  fin

theorem doStatement_sx (C : Ctx root cm cfg bad rec l m) (h : conf l.node (.cls .doStatement) = true) :
    W bad (New.doStatement rec l) (fun p => Sx (items cm p) (full cm l)) := by
  obtain ⟨x1, h1, x2, h2, x3, h3, x4, h4, x5, h5, hv⟩ := cls_at h rfl rfl rfl
  nrm
  unfold New.doStatement
  repeat' stp
  fin

theorem unaryExpression_sx (C : Ctx root cm cfg bad rec l m) (h : conf l.node (.cls .unaryExpression) = true) :
    W bad (New.unaryExpression rec l) (fun p => Sx (items cm p) (full cm l)) := by
  obtain ⟨x1, h1, x2, h2, hv⟩ := cls_at h rfl rfl rfl
  nrm
  unfold New.unaryExpression
  repeat' stp
  fin

theorem enumDeclaration_sx (C : Ctx root cm cfg bad rec l m) (h : conf l.node (.cls .enumDeclaration) = true) :
    W bad (New.enumDeclaration rec l) (fun p => Sx (items cm p) (full cm l)) := by
  obtain ⟨x1, h1, x2, h2, x3, h3, x4, h4, x5, h5, hv⟩ := cls_at h rfl rfl rfl
  nrm
  unfold New.enumDeclaration
  repeat' stp
  fin

theorem enumConstant_sx (C : Ctx root cm cfg bad rec l m) (h : conf l.node (.cls .enumConstant) = true) :
    W bad (New.enumConstant rec l) (fun p => Sx (items cm p) (full cm l)) := by
  obtain ⟨x1, h1, x2, h2, hv⟩ := cls_at h rfl rfl rfl
  nrm
  unfold New.enumConstant
  repeat' stp
  fin

theorem arrayAccess_sx (C : Ctx root cm cfg bad rec l m) (h : conf l.node (.cls .arrayAccess) = true) :
    W bad (New.arrayAccess rec l) (fun p => Sx (items cm p) (full cm l)) := by
  obtain ⟨x1, h1, x2, h2, x3, h3, x4, h4, hv⟩ := cls_at h rfl rfl rfl
  nrm
  unfold New.arrayAccess
  repeat' stp
  fin

theorem dimensionsExpr_sx (C : Ctx root cm cfg bad rec l m) (h : conf l.node (.cls .dimensionsExpr) = true) :
    W bad (New.dimensionsExpr rec l) (fun p => Sx (items cm p) (full cm l)) := by
  obtain ⟨x1, h1, x2, h2, x3, h3, hv⟩ := cls_at h rfl rfl rfl
  nrm
  unfold New.dimensionsExpr
  repeat' stp
  fin

theorem ternaryExpression_sx (C : Ctx root cm cfg bad rec l m) (h : conf l.node (.cls .ternaryExpression) = true) :
    W bad (New.ternaryExpression rec l) (fun p => Sx (items cm p) (full cm l)) := by
  obtain ⟨x1, h1, x2, h2, x3, h3, x4, h4, x5, h5, hv⟩ := cls_at h rfl rfl rfl
  nrm
  unfold New.ternaryExpression
  repeat' stp
  fin

theorem catchClause_sx (C : Ctx root cm cfg bad rec l m) (h : conf l.node (.cls .catchClause) = true) :
    W bad (New.catchClause rec l) (fun p => Sx (items cm p) (full cm l)) := by
  obtain ⟨x1, h1, x2, h2, x3, h3, x4, h4, x5, h5, hv⟩ := cls_at h rfl rfl rfl
  nrm
  unfold New.catchClause
  repeat' stp
  fin

theorem finallyClause_sx (C : Ctx root cm cfg bad rec l m) (h : conf l.node (.cls .finallyClause) = true) :
    W bad (New.finallyClause rec l) (fun p => Sx (items cm p) (full cm l)) := by
  obtain ⟨x1, h1, x2, h2, hv⟩ := cls_at h rfl rfl rfl
  nrm
  unfold New.finallyClause
  repeat' stp
  fin

theorem staticInitializer_sx (C : Ctx root cm cfg bad rec l m) (h : conf l.node (.cls .staticInitializer) = true) :
    W bad (New.staticInitializer rec l) (fun p => Sx (items cm p) (full cm l)) := by
  obtain ⟨x1, h1, x2, h2, hv⟩ := cls_at h rfl rfl rfl
  nrm
  unfold New.staticInitializer
  repeat' stp
  fin

theorem interfaceDeclaration_sx (C : Ctx root cm cfg bad rec l m) (h : conf l.node (.cls .interfaceDeclaration) = true) :
    W bad (New.interfaceDeclaration rec l) (fun p => Sx (items cm p) (full cm l)) := by
  obtain ⟨x1, h1, x2, h2, x3, h3, x4, h4, x5, h5, x6, h6, hv⟩ := cls_at h rfl rfl rfl
  nrm
  unfold New.interfaceDeclaration
  repeat' stp
  fin

theorem extendsInterface_sx (C : Ctx root cm cfg bad rec l m) (h : conf l.node (.cls .extendsInterface) = true) :
    W bad (New.extendsInterface rec l) (fun p => Sx (items cm p) (full cm l)) := by
  obtain ⟨x1, h1, x2, h2, hv⟩ := cls_at h rfl rfl rfl
  nrm
  unfold New.extendsInterface
  repeat' stp
  fin

theorem constantDeclaration_sx (C : Ctx root cm cfg bad rec l m) (h : conf l.node (.cls .constantDeclaration) = true) :
    W bad (New.constantDeclaration rec l) (fun p => Sx (items cm p) (full cm l)) := by
  obtain ⟨x1, h1, x2, h2, x3, y3, h3, x4, h4, hv⟩ := cls_at h rfl rfl rfl
  nrm
  unfold New.constantDeclaration
  repeat' stp
  fin

theorem accessorList_sx (C : Ctx root cm cfg bad rec l m) (h : conf l.node (.cls .accessorList) = true) :
    W bad (New.accessorList rec l) (fun p => Sx (items cm p) (full cm l)) := by
  obtain ⟨x1, h1, x2, h2, x3, h3, x4, h4, hv⟩ := cls_at h rfl rfl rfl
  nrm
  unfold New.accessorList
  repeat' stp
  split
  · fin
  · fin

theorem castExpression_sx (C : Ctx root cm cfg bad rec l m) (h : conf l.node (.cls .castExpression) = true) :
    W bad (New.castExpression rec l) (fun p => Sx (items cm p) (full cm l)) := by
  obtain ⟨x1, h1, x2, h2, x3, h3, x4, h4, hv⟩ := cls_at h rfl rfl rfl
  nrm
  unfold New.castExpression
  repeat' stp
  fin

theorem throwStatement_sx (C : Ctx root cm cfg bad rec l m) (h : conf l.node (.cls .throwStatement) = true) :
    W bad (New.throwStatement rec l) (fun p => Sx (items cm p) (full cm l)) := by
  obtain ⟨x1, h1, x2, h2, x3, h3, hv⟩ := cls_at h rfl rfl rfl
  nrm
  unfold New.throwStatement
  repeat' stp
  fin

theorem switchExpression_sx (C : Ctx root cm cfg bad rec l m) (h : conf l.node (.cls .switchExpression) = true) :
    W bad (New.switchExpression rec l) (fun p => Sx (items cm p) (full cm l)) := by
  obtain ⟨x1, h1, x2, h2, x3, h3, x4, h4, hv⟩ := cls_at h rfl rfl rfl
  nrm
  unfold New.switchExpression
  repeat' stp
  fin

theorem switchBlock_sx (C : Ctx root cm cfg bad rec l m) (h : conf l.node (.cls .switchBlock) = true) :
    W bad (New.switchBlock rec l) (fun p => Sx (items cm p) (full cm l)) := by
  obtain ⟨x1, h1, x2, h2, x3, h3, x4, h4, hv⟩ := cls_at h rfl rfl rfl
  nrm
  unfold New.switchBlock
  repeat' stp
  fin

theorem switchRule_sx (C : Ctx root cm cfg bad rec l m) (h : conf l.node (.cls .switchRule) = true) :
    W bad (New.switchRule rec l) (fun p => Sx (items cm p) (full cm l)) := by
  obtain ⟨x1, h1, x2, h2, hv⟩ := cls_at h rfl rfl rfl
  nrm
  unfold New.switchRule
  repeat' stp
  fin

theorem instanceOfExpression_sx (C : Ctx root cm cfg bad rec l m) (h : conf l.node (.cls .instanceOfExpression) = true) :
    W bad (New.instanceOfExpression rec l) (fun p => Sx (items cm p) (full cm l)) := by
  obtain ⟨x1, h1, x2, h2, x3, h3, hv⟩ := cls_at h rfl rfl rfl
  nrm
  unfold New.instanceOfExpression
  repeat' stp
  fin

theorem versionExpression_sx (C : Ctx root cm cfg bad rec l m) (h : conf l.node (.cls .versionExpression) = true) :
    W bad (New.versionExpression rec l) (fun p => Sx (items cm p) (full cm l)) := by
  rcases cls_at h rfl rfl rfl with ⟨x1, h1, x2, h2, hv⟩ | ⟨x1, h1, x2, h2, hv⟩
  · nrm
    unfold New.versionExpression
    repeat' stp
    fin
  · nrm
    unfold New.versionExpression
    repeat' stp
    fin

theorem javaFieldAccess_sx (C : Ctx root cm cfg bad rec l m) (h : conf l.node (.cls .javaFieldAccess) = true) :
    W bad (New.javaFieldAccess rec l) (fun p => Sx (items cm p) (full cm l)) := by
  obtain ⟨x1, h1, x2, h2, x3, h3, hv⟩ := cls_at h rfl rfl rfl
  nrm
  unfold New.javaFieldAccess
  repeat' stp
  fin

theorem javaType_sx (C : Ctx root cm cfg bad rec l m) (h : conf l.node (.cls .javaType) = true) :
    W bad (New.javaType rec l) (fun p => Sx (items cm p) (full cm l)) := by
  obtain ⟨x1, h1, x2, h2, x3, h3, hv⟩ := cls_at h rfl rfl rfl
  nrm
  unfold New.javaType
  repeat' stp
  fin

theorem arrayType_sx (C : Ctx root cm cfg bad rec l m) (h : conf l.node (.cls .arrayType) = true) :
    W bad (New.arrayType rec l) (fun p => Sx (items cm p) (full cm l)) := by
  obtain ⟨x1, h1, x2, h2, hv⟩ := cls_at h rfl rfl rfl
  nrm
  unfold New.arrayType
  repeat' stp
  fin

theorem triggerDeclaration_sx (C : Ctx root cm cfg bad rec l m) (h : conf l.node (.cls .triggerDeclaration) = true) :
    W bad (New.triggerDeclaration rec l) (fun p => Sx (items cm p) (full cm l)) := by
  obtain ⟨x1, h1, x2, h2, x3, h3, x4, h4, x5, h5, x6, y6, h6, x7, h7, x8, h8, hv⟩ := cls_at h rfl rfl rfl
  nrm
  unfold New.triggerDeclaration
  repeat' stp
  fin

theorem triggerEvent_sx (C : Ctx root cm cfg bad rec l m) (h : conf l.node (.cls .triggerEvent) = true) :
    W bad (New.triggerEvent rec l) (fun p => Sx (items cm p) (full cm l)) := by
  obtain ⟨x1, h1, hv⟩ := cls_at h rfl rfl rfl
  nrm
  unfold New.triggerEvent
  repeat' stp
  fin

theorem triggerBody_sx (C : Ctx root cm cfg bad rec l m) (h : conf l.node (.cls .triggerBody) = true) :
    W bad (New.triggerBody rec l) (fun p => Sx (items cm p) (full cm l)) := by
  obtain ⟨x1, h1, hv⟩ := cls_at h rfl rfl rfl
  nrm
  unfold New.triggerBody
  repeat' stp
  fin

theorem inClause_sx (C : Ctx root cm cfg bad rec l m) (h : conf l.node (.cls .inClause) = true) :
    W bad (New.inClause rec l) (fun p => Sx (items cm p) (full cm l)) := by
  obtain ⟨x1, h1, x2, h2, x3, h3, hv⟩ := cls_at h rfl rfl rfl
  nrm
  unfold New.inClause
  repeat' stp
  fin

theorem returningClause_sx (C : Ctx root cm cfg bad rec l m) (h : conf l.node (.cls .returningClause) = true) :
    W bad (New.returningClause rec l) (fun p => Sx (items cm p) (full cm l)) := by
  obtain ⟨x1, h1, x2, y2, h2, hv⟩ := cls_at h rfl rfl rfl
  nrm
  unfold New.returningClause
  repeat' stp
  fin

theorem soslQueryBody_sx (C : Ctx root cm cfg bad rec l m) (h : conf l.node (.cls .soslQueryBody) = true) :
    W bad (New.soslQueryBody rec l) (fun p => Sx (items cm p) (full cm l)) := by
  obtain ⟨x1, h1, x2, h2, x3, h3, x4, h4, x5, h5, x6, h6, x7, h7, hv⟩ := cls_at h rfl rfl rfl
  nrm
  unfold New.soslQueryBody
  repeat' stp
  fin

theorem fromClause_sx (C : Ctx root cm cfg bad rec l m) (h : conf l.node (.cls .fromClause) = true) :
    W bad (New.fromClause rec l) (fun p => Sx (items cm p) (full cm l)) := by
  obtain ⟨x1, h1, x2, h2, hv⟩ := cls_at h rfl rfl rfl
  nrm
  unfold New.fromClause
  repeat' stp
  fin

theorem storageAlias_sx (C : Ctx root cm cfg bad rec l m) (h : conf l.node (.cls .storageAlias) = true) :
    W bad (New.storageAlias rec l) (fun p => Sx (items cm p) (full cm l)) := by
  obtain ⟨x1, h1, x2, h2, hv⟩ := cls_at h rfl rfl rfl
  nrm
  unfold New.storageAlias
  repeat' stp
  fin

theorem limitClause_sx (C : Ctx root cm cfg bad rec l m) (h : conf l.node (.cls .limitClause) = true) :
    W bad (New.limitClause rec l) (fun p => Sx (items cm p) (full cm l)) := by
  obtain ⟨x1, h1, x2, h2, hv⟩ := cls_at h rfl rfl rfl
  nrm
  unfold New.limitClause
  repeat' stp
  fin

theorem updateClause_sx (C : Ctx root cm cfg bad rec l m) (h : conf l.node (.cls .updateClause) = true) :
    W bad (New.updateClause rec l) (fun p => Sx (items cm p) (full cm l)) := by
  obtain ⟨x1, h1, x2, y2, h2, hv⟩ := cls_at h rfl rfl rfl
  nrm
  unfold New.updateClause
  repeat' stp
  fin

theorem boundApexExpression_sx (C : Ctx root cm cfg bad rec l m) (h : conf l.node (.cls .boundApexExpression) = true) :
    W bad (New.boundApexExpression rec l) (fun p => Sx (items cm p) (full cm l)) := by
  obtain ⟨x1, h1, x2, h2, hv⟩ := cls_at h rfl rfl rfl
  nrm
  unfold New.boundApexExpression
  repeat' stp
  fin

theorem soslUsingClause_sx (C : Ctx root cm cfg bad rec l m) (h : conf l.node (.cls .soslUsingClause) = true) :
    W bad (New.soslUsingClause rec l) (fun p => Sx (items cm p) (full cm l)) := by
  obtain ⟨x1, h1, x2, h2, hv⟩ := cls_at h rfl rfl rfl
  nrm
  unfold New.soslUsingClause
  repeat' stp
  fin

theorem usingClause_sx (C : Ctx root cm cfg bad rec l m) (h : conf l.node (.cls .usingClause) = true) :
    W bad (New.usingClause rec l) (fun p => Sx (items cm p) (full cm l)) := by
  obtain ⟨x1, h1, x2, h2, hv⟩ := cls_at h rfl rfl rfl
  nrm
  unfold New.usingClause
  repeat' stp
  fin

theorem usingScopeClause_sx (C : Ctx root cm cfg bad rec l m) (h : conf l.node (.cls .usingScopeClause) = true) :
    W bad (New.usingScopeClause rec l) (fun p => Sx (items cm p) (full cm l)) := by
  obtain ⟨x1, h1, x2, h2, hv⟩ := cls_at h rfl rfl rfl
  nrm
  unfold New.usingScopeClause
  repeat' stp
  fin

theorem usingListviewClause_sx (C : Ctx root cm cfg bad rec l m) (h : conf l.node (.cls .usingListviewClause) = true) :
    W bad (New.usingListviewClause rec l) (fun p => Sx (items cm p) (full cm l)) := by
  obtain ⟨x1, h1, x2, h2, x3, h3, hv⟩ := cls_at h rfl rfl rfl
  nrm
  unfold New.usingListviewClause
  repeat' stp
  fin

theorem whereClause_sx (C : Ctx root cm cfg bad rec l m) (h : conf l.node (.cls .whereClause) = true) :
    W bad (New.whereClause rec l) (fun p => Sx (items cm p) (full cm l)) := by
  obtain ⟨x1, h1, x2, h2, hv⟩ := cls_at h rfl rfl rfl
  nrm
  unfold New.whereClause
  repeat' stp
  fin

theorem comparableList_sx (C : Ctx root cm cfg bad rec l m) (h : conf l.node (.cls .comparableList) = true) :
    W bad (New.comparableList rec l) (fun p => Sx (items cm p) (full cm l)) := by
  obtain ⟨x1, h1, x2, y2, h2, x3, h3, hv⟩ := cls_at h rfl rfl rfl
  nrm
  unfold New.comparableList
  repeat' stp
  fin

theorem orderByClause_sx (C : Ctx root cm cfg bad rec l m) (h : conf l.node (.cls .orderByClause) = true) :
    W bad (New.orderByClause rec l) (fun p => Sx (items cm p) (full cm l)) := by
  obtain ⟨x1, h1, x2, h2, x3, y3, h3, hv⟩ := cls_at h rfl rfl rfl
  nrm
  unfold New.orderByClause
  repeat' stp
  fin

theorem orderExpression_sx (C : Ctx root cm cfg bad rec l m) (h : conf l.node (.cls .orderExpression) = true) :
    W bad (New.orderExpression rec l) (fun p => Sx (items cm p) (full cm l)) := by
  obtain ⟨x1, h1, x2, h2, x3, h3, hv⟩ := cls_at h rfl rfl rfl
  nrm
  unfold New.orderExpression
  repeat' stp
  fin

theorem subQuery_sx (C : Ctx root cm cfg bad rec l m) (h : conf l.node (.cls .subQuery) = true) :
    W bad (New.subQuery rec l) (fun p => Sx (items cm p) (full cm l)) := by
  obtain ⟨x1, h1, x2, h2, x3, h3, hv⟩ := cls_at h rfl rfl rfl
  nrm
  unfold New.subQuery
  repeat' stp
  fin

theorem mapCreationExpression_sx (C : Ctx root cm cfg bad rec l m) (h : conf l.node (.cls .mapCreationExpression) = true) :
    W bad (New.mapCreationExpression rec l) (fun p => Sx (items cm p) (full cm l)) := by
  obtain ⟨x1, h1, x2, h2, x3, h3, hv⟩ := cls_at h rfl rfl rfl
  nrm
  unfold New.mapCreationExpression
  repeat' stp
  fin

theorem mapInitializer_sx (C : Ctx root cm cfg bad rec l m) (h : conf l.node (.cls .mapInitializer) = true) :
    W bad (New.mapInitializer rec l) (fun p => Sx (items cm p) (full cm l)) := by
  obtain ⟨x1, h1, x2, y2, h2, x3, h3, hv⟩ := cls_at h rfl rfl rfl
  nrm
  unfold New.mapInitializer
  repeat' stp
  fin

theorem havingClause_sx (C : Ctx root cm cfg bad rec l m) (h : conf l.node (.cls .havingClause) = true) :
    W bad (New.havingClause rec l) (fun p => Sx (items cm p) (full cm l)) := by
  obtain ⟨x1, h1, x2, h2, hv⟩ := cls_at h rfl rfl rfl
  nrm
  unfold New.havingClause
  repeat' stp
  fin

theorem soslWithClause_sx (C : Ctx root cm cfg bad rec l m) (h : conf l.node (.cls .soslWithClause) = true) :
    W bad (New.soslWithClause rec l) (fun p => Sx (items cm p) (full cm l)) := by
  obtain ⟨x1, h1, x2, h2, hv⟩ := cls_at h rfl rfl rfl
  nrm
  unfold New.soslWithClause
  repeat' stp
  fin

theorem soqlWithClause_sx (C : Ctx root cm cfg bad rec l m) (h : conf l.node (.cls .soqlWithClause) = true) :
    W bad (New.soqlWithClause rec l) (fun p => Sx (items cm p) (full cm l)) := by
  obtain ⟨x1, h1, x2, h2, hv⟩ := cls_at h rfl rfl rfl
  nrm
  unfold New.soqlWithClause
  repeat' stp
  fin

set_option maxHeartbeats 1000000 in
theorem withSnippetExpression_sx (C : Ctx root cm cfg bad rec l m) (h : conf l.node (.cls .withSnippetExpression) = true) :
    W bad (New.withSnippetExpression rec l) (fun p => Sx (items cm p) (full cm l)) := by
  rcases cls_at h rfl rfl rfl with ⟨x1, h1, hv⟩ | ⟨x1, h1, x2, h2, x3, h3, x4, h4, x5, h5, x6, h6, hv⟩
  · nrm
    unfold New.withSnippetExpression
    repeat' stp
    fin
  · nrm
    unfold New.withSnippetExpression
    repeat' stp
    fin

theorem withMetadataExpression_sx (C : Ctx root cm cfg bad rec l m) (h : conf l.node (.cls .withMetadataExpression) = true) :
    W bad (New.withMetadataExpression rec l) (fun p => Sx (items cm p) (full cm l)) := by
  obtain ⟨x1, h1, x2, h2, x3, h3, hv⟩ := cls_at h rfl rfl rfl
  nrm
  unfold New.withMetadataExpression
  repeat' stp
  fin

set_option maxHeartbeats 1000000 in
theorem withSpellCorrectionExpression_sx (C : Ctx root cm cfg bad rec l m) (h : conf l.node (.cls .withSpellCorrectionExpression) = true) :
    W bad (New.withSpellCorrectionExpression rec l) (fun p => Sx (items cm p) (full cm l)) := by
  obtain ⟨x1, h1, x2, h2, x3, h3, hv⟩ := cls_at h rfl rfl rfl
  nrm
  unfold New.withSpellCorrectionExpression
  repeat' stp
  fin

theorem withPriceBookExpression_sx (C : Ctx root cm cfg bad rec l m) (h : conf l.node (.cls .withPriceBookExpression) = true) :
    W bad (New.withPriceBookExpression rec l) (fun p => Sx (items cm p) (full cm l)) := by
  obtain ⟨x1, h1, x2, h2, x3, h3, hv⟩ := cls_at h rfl rfl rfl
  nrm
  unfold New.withPriceBookExpression
  repeat' stp
  fin

theorem fieldsExpression_sx (C : Ctx root cm cfg bad rec l m) (h : conf l.node (.cls .fieldsExpression) = true) :
    W bad (New.fieldsExpression rec l) (fun p => Sx (items cm p) (full cm l)) := by
  obtain ⟨x1, h1, x2, h2, x3, h3, x4, h4, hv⟩ := cls_at h rfl rfl rfl
  nrm
  unfold New.fieldsExpression
  repeat' stp
  fin

theorem aliasExpression_sx (C : Ctx root cm cfg bad rec l m) (h : conf l.node (.cls .aliasExpression) = true) :
    W bad (New.aliasExpression rec l) (fun p => Sx (items cm p) (full cm l)) := by
  obtain ⟨x1, h1, x2, h2, hv⟩ := cls_at h rfl rfl rfl
  nrm
  unfold New.aliasExpression
  repeat' stp
  fin

theorem countExpression_sx (C : Ctx root cm cfg bad rec l m) (h : conf l.node (.cls .countExpression) = true) :
    W bad (New.countExpression rec l) (fun p => Sx (items cm p) (full cm l)) := by
  obtain ⟨x1, h1, x2, h2, x3, h3, hv⟩ := cls_at h rfl rfl rfl
  nrm
  unfold New.countExpression
  repeat' stp
  fin

theorem classLiteral_sx (C : Ctx root cm cfg bad rec l m) (h : conf l.node (.cls .classLiteral) = true) :
    W bad (New.classLiteral rec l) (fun p => Sx (items cm p) (full cm l)) := by
  obtain ⟨x1, h1, x2, h2, x3, h3, hv⟩ := cls_at h rfl rfl rfl
  nrm
  unfold New.classLiteral
  repeat' stp
  fin

theorem dmlType_sx (C : Ctx root cm cfg bad rec l m) (h : conf l.node (.cls .dmlType) = true) :
    W bad (New.dmlType rec l) (fun p => Sx (items cm p) (full cm l)) := by
  obtain ⟨x1, h1, hv⟩ := cls_at h rfl rfl rfl
  nrm
  unfold New.dmlType
  repeat' stp
  fin

theorem expressionStatement_sx (C : Ctx root cm cfg bad rec l m) (h : conf l.node (.cls .expressionStatement) = true) :
    W bad (New.expressionStatement rec l) (fun p => Sx (items cm p) (full cm l)) := by
  obtain ⟨x1, h1, x2, h2, hv⟩ := cls_at h rfl rfl rfl
  nrm
  unfold New.expressionStatement
  repeat' stp
  fin

end
end Afmt.Gram
