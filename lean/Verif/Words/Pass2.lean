import Verif.Ast.Knot
import Verif.Words.Tac

/-!
# Word boundaries of the programs of the constructors: by the tactic
-/

set_option linter.unusedVariables false
set_option linter.unusedSimpArgs false

namespace Afmt.Words
open Afmt.Prog
open Afmt.Lines (P P_bind P_ok P_err P_any P_mono P_get InL_vec InL_named InL_try InL_filter InL_drop InL_tail InL_head InL_last InO_K InO_N)
set_option maxRecDepth 4000
variable {root : Node} {rec : Rec} {n : Loc} {cfg : Cfg}

theorem classDeclaration_t (E : Env root rec) (hn : In root n) : P (New.classDeclaration rec n) (Kid .S .U) := by
  unfold New.classDeclaration
  refine P_bind (Env.check E) (fun _ _ _ => ?_)
  refine P_bind (Env.optP E (InO_K hn) rfl) (fun m _ hm => ?_)
  refine P_bind (Env.cByN E hn) (fun _ _ hc => ?_)
  refine P_bind (Env.recP E _ _ hc rfl) (fun x _ hx => ?_)
  refine P_bind (Env.optP E (InO_K hn) rfl) (fun tp _ htp => ?_)
  refine P_bind (Env.optP E (InO_K hn) rfl) (fun sc _ hsc => ?_)
  refine P_bind (Env.optP E (InO_K hn) rfl) (fun i _ hi => ?_)
  refine P_bind (Env.cByN E hn) (fun _ _ hb => ?_)
  refine P_bind (Env.recP E _ _ hb rfl) (fun b _ hb => ?_)
  refine P_ok (Kid_of (T_bwcpU (by decide) ?_ (T_nil (by decide))))
  cases sc <;> cases i <;> simp only [Option.isSome_some, Option.isSome_none, Bool.or_false, Bool.or_true, Bool.and_false,
    Bool.and_true, Bool.or_self, Bool.and_self, if_true, Bool.false_eq_true, if_false, opt] <;> wtt E hn

theorem methodDeclaration_t (E : Env root rec) (hn : In root n) : P (New.methodDeclaration rec n) (Kid .S .U) := by
  unfold New.methodDeclaration
  wtt E hn

theorem formalParameters_t (E : Env root rec) (hn : In root n) : P (New.formalParameters rec n) (Kid .U .U) := by
  unfold New.formalParameters
  wtt E hn

theorem formalParameter_t (E : Env root rec) (hn : In root n) : P (New.formalParameter rec n) (Kid .S .U) := by
  unfold New.formalParameter
  wtt E hn

theorem superClass_t (E : Env root rec) (hn : In root n) : P (New.superClass rec n) (Kid .S .U) := by
  unfold New.superClass
  wtt E hn

theorem modifier_t (E : Env root rec) (hn : In root n) : P (New.modifier rec n) (Kid .S .U) := by
  unfold New.modifier
  wtt E hn

theorem annotationKeyValue_t (E : Env root rec) (hn : In root n) : P (New.annotationKeyValue rec n) (Kid .S .U) := by
  unfold New.annotationKeyValue
  wtt E hn

theorem classBody_t (E : Env root rec) (hn : In root n) : P (New.classBody cfg rec n) (Kid .U .U) := by
  unfold New.classBody
  wtt E hn

theorem fieldDeclaration_t (E : Env root rec) (hn : In root n) : P (New.fieldDeclaration rec n) (Kid .S .U) := by
  unfold New.fieldDeclaration
  wtt E hn

theorem arrayInitializer_t (E : Env root rec) (hn : In root n) : P (New.arrayInitializer rec n) (Kid .U .U) := by
  unfold New.arrayInitializer
  wtt E hn

theorem assignmentExpression_t (E : Env root rec) (hn : In root n) : P (New.assignmentExpression rec n) (Kid .S .U) := by
  unfold New.assignmentExpression
  wtt E hn

theorem assignmentLeft_t (E : Env root rec) (hn : In root n) : P (New.assignmentLeft rec n) (Kid .S .U) := by
  unfold New.assignmentLeft
  wtt E hn

theorem boolType_t (E : Env root rec) (hn : In root n) : P (New.boolType n) (Kid .S .U) := by
  unfold New.boolType
  wtt E hn

theorem block_t (E : Env root rec) (hn : In root n) : P (New.block cfg rec n) (Kid .S .U) := by
  unfold New.block
  wtt E hn

theorem interface_t (E : Env root rec) (hn : In root n) : P (New.interface rec n) (Kid .S .U) := by
  unfold New.interface
  wtt E hn

theorem typeList_t (E : Env root rec) (hn : In root n) : P (New.typeList rec n) (Kid .S .U) := by
  unfold New.typeList
  wtt E hn

theorem objectExpression_t (E : Env root rec) (hn : In root n) : P (New.objectExpression rec n) (Kid .S .U) := by
  unfold New.objectExpression
  wtt E hn

theorem typeArguments_t (E : Env root rec) (hn : In root n) : P (New.typeArguments rec n) (Kid .U .S) := by
  unfold New.typeArguments
  wtt E hn

theorem argumentList_t (E : Env root rec) (hn : In root n) : P (New.argumentList rec n) (Kid .U .U) := by
  unfold New.argumentList
  wtt E hn

theorem super_t (E : Env root rec) (hn : In root n) : P (New.super n) (Kid .S .U) := by
  unfold New.super
  wtt E hn

theorem this_t (E : Env root rec) (hn : In root n) : P (New.this n) (Kid .S .U) := by
  unfold New.this
  wtt E hn

theorem binaryExpression_t (E : Env root rec) (hn : In root n) : P (New.binaryExpression rec n) (Kid .S .U) := by
  unfold New.binaryExpression
  wtt E hn

theorem localVariableDeclaration_t (E : Env root rec) (hn : In root n) : P (New.localVariableDeclaration rec n) (Kid .S .U) := by
  unfold New.localVariableDeclaration
  wtt E hn

theorem variableDeclarator_t (E : Env root rec) (hn : In root n) : P (New.variableDeclarator rec n) (Kid .S .U) := by
  unfold New.variableDeclarator
  wtt E hn

theorem genericType_t (E : Env root rec) (hn : In root n) : P (New.genericType rec n) (Kid .S .U) := by
  unfold New.genericType
  wtt E hn

theorem parenthesizedExpression_t (E : Env root rec) (hn : In root n) : P (New.parenthesizedExpression rec n) (Kid .U .U) := by
  unfold New.parenthesizedExpression
  wtt E hn

theorem forInitOption_t (E : Env root rec) (hn : In root n) : P (New.forInitOption rec n) (Kid .S .U) := by
  unfold New.forInitOption
  wtt E hn

theorem updateExpressionVariant_t (E : Env root rec) (hn : In root n) : P (New.updateExpressionVariant rec n) (Kid .S .U) := by
  unfold New.updateExpressionVariant
  refine P_bind (Env.check E) (fun _ _ hk => ?_)
  refine P_bind (E.operN hn (by rw [hk]; decide)) (fun _ _ _ => ?_)
  wtt E hn

theorem scopedTypeIdentifier_t (E : Env root rec) (hn : In root n) : P (New.scopedTypeIdentifier rec n) (Kid .S .U) := by
  unfold New.scopedTypeIdentifier
  wtt E hn

theorem constructorDeclaration_t (E : Env root rec) (hn : In root n) : P (New.constructorDeclaration rec n) (Kid .S .U) := by
  unfold New.constructorDeclaration
  wtt E hn

theorem typeParameters_t (E : Env root rec) (hn : In root n) : P (New.typeParameters rec n) (Kid .U .S) := by
  unfold New.typeParameters
  wtt E hn

theorem objectCreationExpression_t (E : Env root rec) (hn : In root n) : P (New.objectCreationExpression rec n) (Kid .S .U) := by
  unfold New.objectCreationExpression
  wtt E hn

theorem runAsStatement_t (E : Env root rec) (hn : In root n) : P (New.runAsStatement rec n) (Kid .S .U) := by
  unfold New.runAsStatement
  wtt E hn

theorem doStatement_t (E : Env root rec) (hn : In root n) : P (New.doStatement rec n) (Kid .S .U) := by
  unfold New.doStatement
  wtt E hn

theorem whileStatement_t (E : Env root rec) (hn : In root n) : P (New.whileStatement rec n) (Kid .S .U) := by
  unfold New.whileStatement
  wtt E hn

theorem unaryExpression_t (E : Env root rec) (hn : In root n) : P (New.unaryExpression rec n) (Kid .S .U) := by
  unfold New.unaryExpression
  refine P_bind (Env.check E) (fun _ _ hk => ?_)
  refine P_bind (E.oper hn (by rw [hk]; decide)) (fun _ _ _ => ?_)
  wtt E hn

theorem fieldOption_t (E : Env root rec) (hn : In root n) : P (New.fieldOption rec n) (Kid .S .U) := by
  unfold New.fieldOption
  wtt E hn

theorem enumDeclaration_t (E : Env root rec) (hn : In root n) : P (New.enumDeclaration rec n) (Kid .S .U) := by
  unfold New.enumDeclaration
  wtt E hn

theorem enumBody_t (E : Env root rec) (hn : In root n) : P (New.enumBody rec n) (Kid .U .U) := by
  unfold New.enumBody danglingBracket
  wtt E hn

theorem enumConstant_t (E : Env root rec) (hn : In root n) : P (New.enumConstant rec n) (Kid .S .U) := by
  unfold New.enumConstant
  wtt E hn

theorem dmlExpressionVariant_t (E : Env root rec) (hn : In root n) : P (New.dmlExpressionVariant rec n) (Kid .S .U) := by
  unfold New.dmlExpressionVariant
  wtt E hn

theorem dmlSecurityMode_t (E : Env root rec) (hn : In root n) : P (New.dmlSecurityMode n) (Kid .S .U) := by
  unfold New.dmlSecurityMode
  wtt E hn

theorem dmlTypeVariant_t (E : Env root rec) (hn : In root n) : P (New.dmlTypeVariant n) (Kid .S .U) := by
  unfold New.dmlTypeVariant
  wtt E hn

theorem arrayAccess_t (E : Env root rec) (hn : In root n) : P (New.arrayAccess rec n) (Kid .S .U) := by
  unfold New.arrayAccess
  wtt E hn

theorem arrayCreationExpression_t (E : Env root rec) (hn : In root n) : P (New.arrayCreationExpression rec n) (Kid .S .U) := by
  unfold New.arrayCreationExpression
  wtt E hn

theorem dimensions_t (E : Env root rec) (hn : In root n) : P (New.dimensions n) (Kid .U .U) := by
  unfold New.dimensions
  wtt E hn

theorem dimensionsExpr_t (E : Env root rec) (hn : In root n) : P (New.dimensionsExpr rec n) (Kid .U .U) := by
  unfold New.dimensionsExpr
  wtt E hn

theorem returnStatement_t (E : Env root rec) (hn : In root n) : P (New.returnStatement rec n) (Kid .S .U) := by
  unfold New.returnStatement
  wtt E hn

theorem ternaryExpression_t (E : Env root rec) (hn : In root n) : P (New.ternaryExpression rec n) (Kid .S .U) := by
  unfold New.ternaryExpression
  wtt E hn

theorem catchClause_t (E : Env root rec) (hn : In root n) : P (New.catchClause rec n) (Kid .U .U) := by
  unfold New.catchClause
  wtt E hn

theorem finallyClause_t (E : Env root rec) (hn : In root n) : P (New.finallyClause rec n) (Kid .U .U) := by
  unfold New.finallyClause
  wtt E hn

theorem staticInitializer_t (E : Env root rec) (hn : In root n) : P (New.staticInitializer rec n) (Kid .S .U) := by
  unfold New.staticInitializer
  wtt E hn

theorem interfaceDeclaration_t (E : Env root rec) (hn : In root n) : P (New.interfaceDeclaration rec n) (Kid .S .U) := by
  unfold New.interfaceDeclaration
  wtt E hn

theorem extendsInterface_t (E : Env root rec) (hn : In root n) : P (New.extendsInterface rec n) (Kid .U .U) := by
  unfold New.extendsInterface
  wtt E hn

end Afmt.Words
