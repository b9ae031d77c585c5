import Verif.Ast.Knot
import Verif.Lines.Tac

/-!
# Line breaks of the programs of the constructors: by the tactic
-/

set_option linter.unusedVariables false
set_option linter.unusedSimpArgs false

namespace Afmt.Lines
open Afmt.Prog
set_option maxRecDepth 4000
variable {root : Node} {rec : Rec} {n : Loc} {cfg : Cfg}

theorem classDeclaration_t (E : Env root rec) (hn : In root n) : P (New.classDeclaration rec n) (Kid .I) := by
  unfold New.classDeclaration
  tt E hn

theorem methodDeclaration_t (E : Env root rec) (hn : In root n) : P (New.methodDeclaration rec n) (Kid .I) := by
  unfold New.methodDeclaration
  tt E hn

theorem formalParameters_t (E : Env root rec) (hn : In root n) : P (New.formalParameters rec n) (Kid .I) := by
  unfold New.formalParameters
  tt E hn

theorem formalParameter_t (E : Env root rec) (hn : In root n) : P (New.formalParameter rec n) (Kid .I) := by
  unfold New.formalParameter
  tt E hn

theorem superClass_t (E : Env root rec) (hn : In root n) : P (New.superClass rec n) (Kid .I) := by
  unfold New.superClass
  tt E hn

theorem modifier_t (E : Env root rec) (hn : In root n) : P (New.modifier rec n) (Kid .I) := by
  unfold New.modifier
  tt E hn

theorem annotationKeyValue_t (E : Env root rec) (hn : In root n) : P (New.annotationKeyValue rec n) (Kid .I) := by
  unfold New.annotationKeyValue
  tt E hn

theorem classBody_t (E : Env root rec) (hn : In root n) : P (New.classBody cfg rec n) (Kid .I) := by
  unfold New.classBody
  tt E hn

theorem fieldDeclaration_t (E : Env root rec) (hn : In root n) : P (New.fieldDeclaration rec n) (Kid .I) := by
  unfold New.fieldDeclaration
  tt E hn

theorem arrayInitializer_t (E : Env root rec) (hn : In root n) : P (New.arrayInitializer rec n) (Kid .I) := by
  unfold New.arrayInitializer
  tt E hn

theorem assignmentExpression_t (E : Env root rec) (hn : In root n) : P (New.assignmentExpression rec n) (Kid .I) := by
  unfold New.assignmentExpression
  tt E hn

theorem assignmentLeft_t (E : Env root rec) (hn : In root n) : P (New.assignmentLeft rec n) (Kid .I) := by
  unfold New.assignmentLeft
  tt E hn

theorem boolType_t (E : Env root rec) (hn : In root n) : P (New.boolType n) (Kid .I) := by
  unfold New.boolType
  tt E hn

theorem block_t (E : Env root rec) (hn : In root n) : P (New.block cfg rec n) (Kid .I) := by
  unfold New.block
  tt E hn

theorem interface_t (E : Env root rec) (hn : In root n) : P (New.interface rec n) (Kid .I) := by
  unfold New.interface
  tt E hn

theorem typeList_t (E : Env root rec) (hn : In root n) : P (New.typeList rec n) (Kid .I) := by
  unfold New.typeList
  tt E hn

theorem objectExpression_t (E : Env root rec) (hn : In root n) : P (New.objectExpression rec n) (Kid .I) := by
  unfold New.objectExpression
  tt E hn

theorem typeArguments_t (E : Env root rec) (hn : In root n) : P (New.typeArguments rec n) (Kid .I) := by
  unfold New.typeArguments
  tt E hn

theorem argumentList_t (E : Env root rec) (hn : In root n) : P (New.argumentList rec n) (Kid .I) := by
  unfold New.argumentList
  tt E hn

theorem super_t (E : Env root rec) (hn : In root n) : P (New.super n) (Kid .I) := by
  unfold New.super
  tt E hn

theorem this_t (E : Env root rec) (hn : In root n) : P (New.this n) (Kid .I) := by
  unfold New.this
  tt E hn

theorem binaryExpression_t (E : Env root rec) (hn : In root n) : P (New.binaryExpression rec n) (Kid .I) := by
  unfold New.binaryExpression
  tt E hn

theorem localVariableDeclaration_t (E : Env root rec) (hn : In root n) : P (New.localVariableDeclaration rec n) (Kid .I) := by
  unfold New.localVariableDeclaration
  tt E hn

theorem variableDeclarator_t (E : Env root rec) (hn : In root n) : P (New.variableDeclarator rec n) (Kid .I) := by
  unfold New.variableDeclarator
  tt E hn

theorem genericType_t (E : Env root rec) (hn : In root n) : P (New.genericType rec n) (Kid .I) := by
  unfold New.genericType
  tt E hn

theorem parenthesizedExpression_t (E : Env root rec) (hn : In root n) : P (New.parenthesizedExpression rec n) (Kid .I) := by
  unfold New.parenthesizedExpression
  tt E hn

theorem forInitOption_t (E : Env root rec) (hn : In root n) : P (New.forInitOption rec n) (Kid .I) := by
  unfold New.forInitOption
  tt E hn

theorem updateExpressionVariant_t (E : Env root rec) (hn : In root n) : P (New.updateExpressionVariant rec n) (Kid .I) := by
  unfold New.updateExpressionVariant
  tt E hn

theorem scopedTypeIdentifier_t (E : Env root rec) (hn : In root n) : P (New.scopedTypeIdentifier rec n) (Kid .I) := by
  unfold New.scopedTypeIdentifier
  tt E hn

theorem constructorDeclaration_t (E : Env root rec) (hn : In root n) : P (New.constructorDeclaration rec n) (Kid .I) := by
  unfold New.constructorDeclaration
  tt E hn

theorem typeParameters_t (E : Env root rec) (hn : In root n) : P (New.typeParameters rec n) (Kid .I) := by
  unfold New.typeParameters
  tt E hn

theorem objectCreationExpression_t (E : Env root rec) (hn : In root n) : P (New.objectCreationExpression rec n) (Kid .I) := by
  unfold New.objectCreationExpression
  tt E hn

theorem runAsStatement_t (E : Env root rec) (hn : In root n) : P (New.runAsStatement rec n) (Kid .I) := by
  unfold New.runAsStatement
  tt E hn

theorem doStatement_t (E : Env root rec) (hn : In root n) : P (New.doStatement rec n) (Kid .I) := by
  unfold New.doStatement
  tt E hn

theorem whileStatement_t (E : Env root rec) (hn : In root n) : P (New.whileStatement rec n) (Kid .I) := by
  unfold New.whileStatement
  tt E hn

theorem unaryExpression_t (E : Env root rec) (hn : In root n) : P (New.unaryExpression rec n) (Kid .I) := by
  unfold New.unaryExpression
  tt E hn

theorem fieldOption_t (E : Env root rec) (hn : In root n) : P (New.fieldOption rec n) (Kid .I) := by
  unfold New.fieldOption
  tt E hn

theorem enumDeclaration_t (E : Env root rec) (hn : In root n) : P (New.enumDeclaration rec n) (Kid .I) := by
  unfold New.enumDeclaration
  tt E hn

theorem enumBody_t (E : Env root rec) (hn : In root n) : P (New.enumBody rec n) (Kid .I) := by
  unfold New.enumBody
  tt E hn

theorem enumConstant_t (E : Env root rec) (hn : In root n) : P (New.enumConstant rec n) (Kid .I) := by
  unfold New.enumConstant
  tt E hn

theorem dmlExpressionVariant_t (E : Env root rec) (hn : In root n) : P (New.dmlExpressionVariant rec n) (Kid .I) := by
  unfold New.dmlExpressionVariant
  tt E hn

theorem dmlSecurityMode_t (E : Env root rec) (hn : In root n) : P (New.dmlSecurityMode n) (Kid .I) := by
  unfold New.dmlSecurityMode
  tt E hn

theorem dmlTypeVariant_t (E : Env root rec) (hn : In root n) : P (New.dmlTypeVariant n) (Kid .I) := by
  unfold New.dmlTypeVariant
  tt E hn

theorem arrayAccess_t (E : Env root rec) (hn : In root n) : P (New.arrayAccess rec n) (Kid .I) := by
  unfold New.arrayAccess
  tt E hn

theorem arrayCreationExpression_t (E : Env root rec) (hn : In root n) : P (New.arrayCreationExpression rec n) (Kid .I) := by
  unfold New.arrayCreationExpression
  tt E hn

theorem dimensions_t (E : Env root rec) (hn : In root n) : P (New.dimensions n) (Kid .I) := by
  unfold New.dimensions
  tt E hn

theorem dimensionsExpr_t (E : Env root rec) (hn : In root n) : P (New.dimensionsExpr rec n) (Kid .I) := by
  unfold New.dimensionsExpr
  tt E hn

theorem returnStatement_t (E : Env root rec) (hn : In root n) : P (New.returnStatement rec n) (Kid .I) := by
  unfold New.returnStatement
  tt E hn

theorem ternaryExpression_t (E : Env root rec) (hn : In root n) : P (New.ternaryExpression rec n) (Kid .I) := by
  unfold New.ternaryExpression
  tt E hn

theorem catchClause_t (E : Env root rec) (hn : In root n) : P (New.catchClause rec n) (Kid .I) := by
  unfold New.catchClause
  tt E hn

theorem finallyClause_t (E : Env root rec) (hn : In root n) : P (New.finallyClause rec n) (Kid .I) := by
  unfold New.finallyClause
  tt E hn

theorem staticInitializer_t (E : Env root rec) (hn : In root n) : P (New.staticInitializer rec n) (Kid .I) := by
  unfold New.staticInitializer
  tt E hn

theorem interfaceDeclaration_t (E : Env root rec) (hn : In root n) : P (New.interfaceDeclaration rec n) (Kid .I) := by
  unfold New.interfaceDeclaration
  tt E hn

theorem extendsInterface_t (E : Env root rec) (hn : In root n) : P (New.extendsInterface rec n) (Kid .I) := by
  unfold New.extendsInterface
  tt E hn

end Afmt.Lines
