import Verif.Ast.Knot
import Verif.Notes.Tac

/-!
# Line breaks of the programs of the constructors: by the tactic
-/

set_option linter.unusedVariables false
set_option linter.unusedSectionVars false
set_option linter.unusedSimpArgs false

namespace Afmt.Notes
open Afmt.Prog
open Afmt.Lines (P P_bind P_ok P_pure P_err P_any P_mono Tidy InL InO fullKinds TidyTree InL_vec InL_named InL_try InL_filter InL_drop InL_tail InL_head InL_last InO_K InO_N InO_first mapR_ne Tidy_lower Tidy_upper Tidy_quote Tidy_colon P_get P_of P_guard)
set_option maxRecDepth 4000
variable [K : Src] {root : Node} {rec : Rec} {n : Loc} {x : St} {cfg : Cfg}

theorem classDeclaration_t (E : Env root n .I rec) (hn : In root n) : P (New.classDeclaration rec n) (Kid (pst n.id)) := by
  unfold New.classDeclaration
  ntt E hn

theorem methodDeclaration_t (E : Env root n .I rec) (hn : In root n) : P (New.methodDeclaration rec n) (Kid (pst n.id)) := by
  unfold New.methodDeclaration
  ntt E hn

theorem formalParameters_t (E : Env root n .I rec) (hn : In root n) : P (New.formalParameters rec n) (Kid (pst n.id)) := by
  unfold New.formalParameters
  ntt E hn

theorem formalParameter_t (E : Env root n .I rec) (hn : In root n) : P (New.formalParameter rec n) (Kid (pst n.id)) := by
  unfold New.formalParameter
  ntt E hn

theorem superClass_t (E : Env root n .I rec) (hn : In root n) : P (New.superClass rec n) (Kid (pst n.id)) := by
  unfold New.superClass
  ntt E hn

theorem modifier_t (E : Env root n .I rec) (hn : In root n) : P (New.modifier rec n) (Kid (pst n.id)) := by
  unfold New.modifier
  ntt E hn

theorem annotationKeyValue_t (E : Env root n .I rec) (hn : In root n) : P (New.annotationKeyValue rec n) (Kid (pst n.id)) := by
  unfold New.annotationKeyValue
  ntt E hn

theorem classBody_t (E : Env root n .P rec) (hn : In root n) : P (New.classBody cfg rec n) (Kid (pst n.id)) := by
  unfold New.classBody
  ntt E hn

theorem fieldDeclaration_t (E : Env root n .I rec) (hn : In root n) : P (New.fieldDeclaration rec n) (Kid (pst n.id)) := by
  unfold New.fieldDeclaration
  ntt E hn

theorem arrayInitializer_t (E : Env root n .I rec) (hn : In root n) : P (New.arrayInitializer rec n) (Kid (pst n.id)) := by
  unfold New.arrayInitializer
  ntt E hn

theorem assignmentExpression_t (E : Env root n .I rec) (hn : In root n) : P (New.assignmentExpression rec n) (Kid (pst n.id)) := by
  unfold New.assignmentExpression
  ntt E hn

theorem assignmentLeft_t (E : Env root n .I rec) (hn : In root n) : P (New.assignmentLeft rec n) (Kid (pst n.id)) := by
  unfold New.assignmentLeft
  ntt E hn

theorem boolType_t (E : Env root n .I rec) (hn : In root n) : P (New.boolType n) (Kid (pst n.id)) := by
  unfold New.boolType
  ntt E hn

theorem block_t (E : Env root n .P rec) (hn : In root n) : P (New.block cfg rec n) (Kid (pst n.id)) := by
  unfold New.block
  ntt E hn

theorem interface_t (E : Env root n .I rec) (hn : In root n) : P (New.interface rec n) (Kid (pst n.id)) := by
  unfold New.interface
  ntt E hn

theorem typeList_t (E : Env root n .I rec) (hn : In root n) : P (New.typeList rec n) (Kid (pst n.id)) := by
  unfold New.typeList
  ntt E hn

theorem objectExpression_t (E : Env root n .I rec) (hn : In root n) : P (New.objectExpression rec n) (Kid (pst n.id)) := by
  unfold New.objectExpression
  ntt E hn

theorem typeArguments_t (E : Env root n .I rec) (hn : In root n) : P (New.typeArguments rec n) (Kid (pst n.id)) := by
  unfold New.typeArguments
  ntt E hn

theorem argumentList_t (E : Env root n .I rec) (hn : In root n) : P (New.argumentList rec n) (Kid (pst n.id)) := by
  unfold New.argumentList
  ntt E hn

theorem super_t (E : Env root n .I rec) (hn : In root n) : P (New.super n) (Kid (pst n.id)) := by
  unfold New.super
  ntt E hn

theorem this_t (E : Env root n .I rec) (hn : In root n) : P (New.this n) (Kid (pst n.id)) := by
  unfold New.this
  ntt E hn

theorem binaryExpression_t (E : Env root n .I rec) (hn : In root n) : P (New.binaryExpression rec n) (Kid (pst n.id)) := by
  unfold New.binaryExpression
  ntt E hn

theorem localVariableDeclaration_t (E : Env root n .I rec) (hn : In root n) : P (New.localVariableDeclaration rec n) (Kid (pst n.id)) := by
  unfold New.localVariableDeclaration
  ntt E hn

theorem variableDeclarator_t (E : Env root n .I rec) (hn : In root n) : P (New.variableDeclarator rec n) (Kid (pst n.id)) := by
  unfold New.variableDeclarator
  ntt E hn

theorem genericType_t (E : Env root n .I rec) (hn : In root n) : P (New.genericType rec n) (Kid (pst n.id)) := by
  unfold New.genericType
  ntt E hn

theorem parenthesizedExpression_t (E : Env root n .I rec) (hn : In root n) : P (New.parenthesizedExpression rec n) (Kid (pst n.id)) := by
  unfold New.parenthesizedExpression
  ntt E hn

theorem forInitOption_t (E : Env root n x rec) (hn : In root n) : P (New.forInitOption rec n) (Kid (pst n.id)) := by
  unfold New.forInitOption
  ntt E hn

theorem updateExpressionVariant_t (E : Env root n .I rec) (hn : In root n) : P (New.updateExpressionVariant rec n) (Kid (pst n.id)) := by
  unfold New.updateExpressionVariant
  ntt E hn

theorem scopedTypeIdentifier_t (E : Env root n .I rec) (hn : In root n) : P (New.scopedTypeIdentifier rec n) (Kid (pst n.id)) := by
  unfold New.scopedTypeIdentifier
  ntt E hn

theorem constructorDeclaration_t (E : Env root n .I rec) (hn : In root n) : P (New.constructorDeclaration rec n) (Kid (pst n.id)) := by
  unfold New.constructorDeclaration
  ntt E hn

theorem typeParameters_t (E : Env root n .I rec) (hn : In root n) : P (New.typeParameters rec n) (Kid (pst n.id)) := by
  unfold New.typeParameters
  ntt E hn

theorem objectCreationExpression_t (E : Env root n .I rec) (hn : In root n) : P (New.objectCreationExpression rec n) (Kid (pst n.id)) := by
  unfold New.objectCreationExpression
  ntt E hn

theorem runAsStatement_t (E : Env root n .I rec) (hn : In root n) : P (New.runAsStatement rec n) (Kid (pst n.id)) := by
  unfold New.runAsStatement
  ntt E hn

theorem doStatement_t (E : Env root n .I rec) (hn : In root n) : P (New.doStatement rec n) (Kid (pst n.id)) := by
  unfold New.doStatement
  ntt E hn

theorem whileStatement_t (E : Env root n .I rec) (hn : In root n) : P (New.whileStatement rec n) (Kid (pst n.id)) := by
  unfold New.whileStatement
  ntt E hn

theorem unaryExpression_t (E : Env root n .I rec) (hn : In root n) : P (New.unaryExpression rec n) (Kid (pst n.id)) := by
  unfold New.unaryExpression
  ntt E hn

theorem fieldOption_t (E : Env root n .I rec) (hn : In root n) : P (New.fieldOption rec n) (Kid (pst n.id)) := by
  unfold New.fieldOption
  ntt E hn

theorem enumDeclaration_t (E : Env root n .I rec) (hn : In root n) : P (New.enumDeclaration rec n) (Kid (pst n.id)) := by
  unfold New.enumDeclaration
  ntt E hn

theorem enumBody_t (E : Env root n .I rec) (hn : In root n) : P (New.enumBody rec n) (Kid (pst n.id)) := by
  unfold New.enumBody
  ntt E hn

theorem enumConstant_t (E : Env root n .I rec) (hn : In root n) : P (New.enumConstant rec n) (Kid (pst n.id)) := by
  unfold New.enumConstant
  ntt E hn

theorem dmlExpressionVariant_t (E : Env root n .I rec) (hn : In root n) : P (New.dmlExpressionVariant rec n) (Kid (pst n.id)) := by
  unfold New.dmlExpressionVariant
  ntt E hn

theorem dmlSecurityMode_t (E : Env root n .I rec) (hn : In root n) : P (New.dmlSecurityMode n) (Kid (pst n.id)) := by
  unfold New.dmlSecurityMode
  ntt E hn

theorem dmlTypeVariant_t (E : Env root n .I rec) (hn : In root n) : P (New.dmlTypeVariant n) (Kid (pst n.id)) := by
  unfold New.dmlTypeVariant
  ntt E hn

theorem arrayAccess_t (E : Env root n .I rec) (hn : In root n) : P (New.arrayAccess rec n) (Kid (pst n.id)) := by
  unfold New.arrayAccess
  ntt E hn

theorem arrayCreationExpression_t (E : Env root n .I rec) (hn : In root n) : P (New.arrayCreationExpression rec n) (Kid (pst n.id)) := by
  unfold New.arrayCreationExpression
  ntt E hn

theorem dimensions_t (E : Env root n .I rec) (hn : In root n) : P (New.dimensions n) (Kid (pst n.id)) := by
  unfold New.dimensions
  ntt E hn

theorem dimensionsExpr_t (E : Env root n .I rec) (hn : In root n) : P (New.dimensionsExpr rec n) (Kid (pst n.id)) := by
  unfold New.dimensionsExpr
  ntt E hn

theorem returnStatement_t (E : Env root n .I rec) (hn : In root n) : P (New.returnStatement rec n) (Kid (pst n.id)) := by
  unfold New.returnStatement
  ntt E hn

theorem ternaryExpression_t (E : Env root n .I rec) (hn : In root n) : P (New.ternaryExpression rec n) (Kid (pst n.id)) := by
  unfold New.ternaryExpression
  ntt E hn

theorem catchClause_t (E : Env root n .I rec) (hn : In root n) : P (New.catchClause rec n) (Kid (pst n.id)) := by
  unfold New.catchClause
  ntt E hn

theorem finallyClause_t (E : Env root n .I rec) (hn : In root n) : P (New.finallyClause rec n) (Kid (pst n.id)) := by
  unfold New.finallyClause
  ntt E hn

theorem staticInitializer_t (E : Env root n .I rec) (hn : In root n) : P (New.staticInitializer rec n) (Kid (pst n.id)) := by
  unfold New.staticInitializer
  ntt E hn

theorem interfaceDeclaration_t (E : Env root n .I rec) (hn : In root n) : P (New.interfaceDeclaration rec n) (Kid (pst n.id)) := by
  unfold New.interfaceDeclaration
  ntt E hn

theorem extendsInterface_t (E : Env root n .I rec) (hn : In root n) : P (New.extendsInterface rec n) (Kid (pst n.id)) := by
  unfold New.extendsInterface
  ntt E hn

end Afmt.Notes
