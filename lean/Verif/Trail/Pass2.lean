import Verif.Ast.Knot
import Verif.Trail.Tac

/-!
# Ends of lines in the programs of the constructors: by the tactic
-/

set_option linter.unusedVariables false
set_option linter.unusedSimpArgs false

namespace Afmt.Trail
open Afmt.Prog
open Afmt.Lines (syms symss symss_append P P_bind P_ok P_pure P_err P_any P_mono P_get P_of P_guard InL InO InL_vec InL_named InL_try InL_filter InL_drop InL_tail InL_head InL_last InO_K InO_N InO_first mapR_ne fullKinds callable)
set_option maxRecDepth 4000
variable [Gate] {root : Node} {rec : Rec} {n : Loc} {cfg : Cfg}

theorem classDeclaration_t (E : Env root rec) (hn : In root n) : P (New.classDeclaration rec n) (Kid .N) := by
  unfold New.classDeclaration
  refine P_bind (Env.check E) (fun _ _ _ => ?_)
  refine P_bind (Env.optP E (InO_K hn) rfl) (fun m _ hm => ?_)
  refine P_bind (Env.cByN E hn) (fun _ _ hc => ?_)
  refine P_bind (Env.recP E _ _ hc rfl) (fun name _ hname => ?_)
  refine P_bind (Env.optP E (InO_K hn) rfl) (fun tp _ htp => ?_)
  refine P_bind (Env.optP E (InO_K hn) rfl) (fun sc _ hsc => ?_)
  refine P_bind (Env.optP E (InO_K hn) rfl) (fun it _ hit => ?_)
  refine P_bind (Env.cByN E hn) (fun _ _ hc => ?_)
  refine P_bind (Env.recP E _ _ hc rfl) (fun b _ hb => ?_)
  cases sc with
  | none =>
    cases it with
    | none =>
      simp only [Option.isSome, Bool.or_self, Bool.or_false, Bool.false_or, Bool.or_true, Bool.and_self, Bool.and_true, Bool.and_false, Bool.true_and, Bool.false_and, Bool.false_eq_true, if_true, if_false, opt]
      wt E hn
    | some i =>
      have hi := OptK_get hit
      simp only [Option.isSome, Bool.or_self, Bool.or_false, Bool.false_or, Bool.or_true, Bool.and_self, Bool.and_true, Bool.and_false, Bool.true_and, Bool.false_and, Bool.false_eq_true, if_true, if_false, opt]
      wt E hn
  | some s =>
    have hs := OptK_get hsc
    cases it with
    | none =>
      simp only [Option.isSome, Bool.or_self, Bool.or_false, Bool.false_or, Bool.or_true, Bool.and_self, Bool.and_true, Bool.and_false, Bool.true_and, Bool.false_and, Bool.false_eq_true, if_true, if_false, opt]
      wt E hn
    | some i =>
      have hi := OptK_get hit
      simp only [Option.isSome, Bool.or_self, Bool.or_false, Bool.false_or, Bool.or_true, Bool.and_self, Bool.and_true, Bool.and_false, Bool.true_and, Bool.false_and, Bool.false_eq_true, if_true, if_false, opt]
      wt E hn

theorem methodDeclaration_t (E : Env root rec) (hn : In root n) : P (New.methodDeclaration rec n) (Kid .N) := by
  unfold New.methodDeclaration
  wt E hn

theorem formalParameters_t (E : Env root rec) (hn : In root n) : P (New.formalParameters rec n) (Kid .N) := by
  unfold New.formalParameters
  wt E hn

theorem formalParameter_t (E : Env root rec) (hn : In root n) : P (New.formalParameter rec n) (Kid .N) := by
  unfold New.formalParameter
  wt E hn

theorem superClass_t (E : Env root rec) (hn : In root n) : P (New.superClass rec n) (Kid .N) := by
  unfold New.superClass
  wt E hn

theorem modifier_t (E : Env root rec) (hn : In root n) : P (New.modifier rec n) (Kid .N) := by
  unfold New.modifier
  wt E hn

theorem annotationKeyValue_t (E : Env root rec) (hn : In root n) : P (New.annotationKeyValue rec n) (Kid .N) := by
  unfold New.annotationKeyValue
  wt E hn

theorem classBody_t (E : Env root rec) (hn : In root n) : P (New.classBody cfg rec n) (Kid .N) := by
  unfold New.classBody
  wt E hn

theorem fieldDeclaration_t (E : Env root rec) (hn : In root n) : P (New.fieldDeclaration rec n) (Kid .N) := by
  unfold New.fieldDeclaration
  wt E hn

theorem arrayInitializer_t (E : Env root rec) (hn : In root n) : P (New.arrayInitializer rec n) (Kid .N) := by
  unfold New.arrayInitializer
  wt E hn

theorem assignmentExpression_t (E : Env root rec) (hn : In root n) : P (New.assignmentExpression rec n) (Kid .N) := by
  unfold New.assignmentExpression
  wt E hn

theorem assignmentLeft_t (E : Env root rec) (hn : In root n) : P (New.assignmentLeft rec n) (Kid .N) := by
  unfold New.assignmentLeft
  wt E hn

theorem boolType_t (E : Env root rec) (hn : In root n) : P (New.boolType n) (Kid .N) := by
  unfold New.boolType
  wt E hn

theorem block_t (E : Env root rec) (hn : In root n) : P (New.block cfg rec n) (Kid .N) := by
  unfold New.block
  wt E hn

theorem interface_t (E : Env root rec) (hn : In root n) : P (New.interface rec n) (Kid .N) := by
  unfold New.interface
  wt E hn

theorem typeList_t (E : Env root rec) (hn : In root n) : P (New.typeList rec n) (Kid .N) := by
  unfold New.typeList
  wt E hn

theorem objectExpression_t (E : Env root rec) (hn : In root n) : P (New.objectExpression rec n) (Kid .N) := by
  unfold New.objectExpression
  wt E hn

theorem typeArguments_t (E : Env root rec) (hn : In root n) : P (New.typeArguments rec n) (Kid .N) := by
  unfold New.typeArguments
  wt E hn

theorem argumentList_t (E : Env root rec) (hn : In root n) : P (New.argumentList rec n) (Kid .N) := by
  unfold New.argumentList
  wt E hn

theorem super_t (E : Env root rec) (hn : In root n) : P (New.super n) (Kid .N) := by
  unfold New.super
  wt E hn

theorem this_t (E : Env root rec) (hn : In root n) : P (New.this n) (Kid .N) := by
  unfold New.this
  wt E hn

theorem binaryExpression_t (E : Env root rec) (hn : In root n) : P (New.binaryExpression rec n) (Kid .N) := by
  unfold New.binaryExpression
  wt E hn

theorem localVariableDeclaration_t (E : Env root rec) (hn : In root n) : P (New.localVariableDeclaration rec n) (Kid .N) := by
  unfold New.localVariableDeclaration
  wt E hn

theorem genericType_t (E : Env root rec) (hn : In root n) : P (New.genericType rec n) (Kid .N) := by
  unfold New.genericType
  wt E hn

theorem parenthesizedExpression_t (E : Env root rec) (hn : In root n) : P (New.parenthesizedExpression rec n) (Kid .N) := by
  unfold New.parenthesizedExpression
  wt E hn

theorem forInitOption_t (E : Env root rec) (hn : In root n) : P (New.forInitOption rec n) (Kid .N) := by
  unfold New.forInitOption
  wt E hn

theorem updateExpressionVariant_t (E : Env root rec) (hn : In root n) : P (New.updateExpressionVariant rec n) (Kid .N) := by
  unfold New.updateExpressionVariant
  wt E hn

theorem scopedTypeIdentifier_t (E : Env root rec) (hn : In root n) : P (New.scopedTypeIdentifier rec n) (Kid .N) := by
  unfold New.scopedTypeIdentifier
  wt E hn

theorem constructorDeclaration_t (E : Env root rec) (hn : In root n) : P (New.constructorDeclaration rec n) (Kid .N) := by
  unfold New.constructorDeclaration
  wt E hn

theorem typeParameters_t (E : Env root rec) (hn : In root n) : P (New.typeParameters rec n) (Kid .N) := by
  unfold New.typeParameters
  wt E hn

theorem objectCreationExpression_t (E : Env root rec) (hn : In root n) : P (New.objectCreationExpression rec n) (Kid .N) := by
  unfold New.objectCreationExpression
  wt E hn

theorem runAsStatement_t (E : Env root rec) (hn : In root n) : P (New.runAsStatement rec n) (Kid .N) := by
  unfold New.runAsStatement
  wt E hn

theorem doStatement_t (E : Env root rec) (hn : In root n) : P (New.doStatement rec n) (Kid .N) := by
  unfold New.doStatement
  wt E hn

theorem whileStatement_t (E : Env root rec) (hn : In root n) : P (New.whileStatement rec n) (Kid .N) := by
  unfold New.whileStatement
  wt E hn

theorem unaryExpression_t (E : Env root rec) (hn : In root n) : P (New.unaryExpression rec n) (Kid .N) := by
  unfold New.unaryExpression
  wt E hn

theorem fieldOption_t (E : Env root rec) (hn : In root n) : P (New.fieldOption rec n) (Kid .N) := by
  unfold New.fieldOption
  wt E hn

theorem enumDeclaration_t (E : Env root rec) (hn : In root n) : P (New.enumDeclaration rec n) (Kid .N) := by
  unfold New.enumDeclaration
  wt E hn

theorem enumBody_t (E : Env root rec) (hn : In root n) : P (New.enumBody rec n) (Kid .N) := by
  unfold New.enumBody
  wt E hn

theorem enumConstant_t (E : Env root rec) (hn : In root n) : P (New.enumConstant rec n) (Kid .N) := by
  unfold New.enumConstant
  wt E hn

theorem dmlExpressionVariant_t (E : Env root rec) (hn : In root n) : P (New.dmlExpressionVariant rec n) (Kid .N) := by
  unfold New.dmlExpressionVariant
  wt E hn

theorem dmlSecurityMode_t (E : Env root rec) (hn : In root n) : P (New.dmlSecurityMode n) (Kid .N) := by
  unfold New.dmlSecurityMode
  wt E hn

theorem dmlTypeVariant_t (E : Env root rec) (hn : In root n) : P (New.dmlTypeVariant n) (Kid .N) := by
  unfold New.dmlTypeVariant
  wt E hn

theorem arrayAccess_t (E : Env root rec) (hn : In root n) : P (New.arrayAccess rec n) (Kid .N) := by
  unfold New.arrayAccess
  wt E hn

theorem arrayCreationExpression_t (E : Env root rec) (hn : In root n) : P (New.arrayCreationExpression rec n) (Kid .N) := by
  unfold New.arrayCreationExpression
  wt E hn

theorem dimensions_t (E : Env root rec) (hn : In root n) : P (New.dimensions n) (Kid .N) := by
  unfold New.dimensions
  wt E hn

theorem dimensionsExpr_t (E : Env root rec) (hn : In root n) : P (New.dimensionsExpr rec n) (Kid .N) := by
  unfold New.dimensionsExpr
  wt E hn

theorem returnStatement_t (E : Env root rec) (hn : In root n) : P (New.returnStatement rec n) (Kid .N) := by
  unfold New.returnStatement
  wt E hn

theorem ternaryExpression_t (E : Env root rec) (hn : In root n) : P (New.ternaryExpression rec n) (Kid .N) := by
  unfold New.ternaryExpression
  wt E hn

theorem catchClause_t (E : Env root rec) (hn : In root n) : P (New.catchClause rec n) Led := by
  unfold New.catchClause
  wt E hn

theorem finallyClause_t (E : Env root rec) (hn : In root n) : P (New.finallyClause rec n) Led := by
  unfold New.finallyClause
  wt E hn

theorem staticInitializer_t (E : Env root rec) (hn : In root n) : P (New.staticInitializer rec n) (Kid .N) := by
  unfold New.staticInitializer
  wt E hn

theorem interfaceDeclaration_t (E : Env root rec) (hn : In root n) : P (New.interfaceDeclaration rec n) (Kid .N) := by
  unfold New.interfaceDeclaration
  wt E hn

theorem extendsInterface_t (E : Env root rec) (hn : In root n) : P (New.extendsInterface rec n) Led := by
  unfold New.extendsInterface
  wt E hn

end Afmt.Trail
