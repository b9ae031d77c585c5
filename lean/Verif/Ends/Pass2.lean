import Verif.Ast.Knot
import Verif.Ends.Tac

/-!
# Ends of lines in the programs of the constructors: by the tactic
-/

set_option linter.unusedVariables false
set_option linter.unusedSectionVars false
set_option linter.unusedSimpArgs false

namespace Afmt.Ends
open Afmt.Prog
open Afmt.Notes (Quiet QuietO quietO_none child_vec child_named child_tryCByN child_tryCByK child_cByN child_cByK child_csByK InL_mem InO_mem hush)
open Afmt.Lines (P P_bind P_ok P_pure P_err P_any P_mono P_get P_of P_guard InL InO InL_vec InL_named InL_try InL_filter InL_drop InL_tail InL_head InL_last InO_K InO_N InO_first mapR_ne fullKinds)
open Afmt.Trail (Gate Tight ledCls plainly Tight_lower Tight_upper Tight_quote Tight_colon)
set_option maxRecDepth 4000
variable [Gate] [K : Fair] {root : Node} {rec : Rec} {n : Loc} {x : St} {cfg : Cfg}

theorem classDeclaration_t (E : Env root n .N rec) (hn : In root n) : P (New.classDeclaration rec n) (Kid (pst n.id)) := by
  unfold New.classDeclaration
  refine P_bind (Env.check E) (fun _ _ _ => ?_)
  refine P_bind (Env.optP E (InO_K hn) rfl) (fun m _ hm => ?_)
  refine P_bind (Env.cByN E hn) (fun _ hc' hc => ?_)
  refine P_bind (Env.nearP E _ _ (child_cByN hc') rfl rfl) (fun name _ hname => ?_)
  refine P_bind (Env.optP E (InO_K hn) rfl) (fun tp _ htp => ?_)
  refine P_bind (Env.optP E (InO_K hn) rfl) (fun sc _ hsc => ?_)
  refine P_bind (Env.optP E (InO_K hn) rfl) (fun it _ hit => ?_)
  refine P_bind (Env.cByN E hn) (fun _ hc' hc => ?_)
  refine P_bind (Env.nearP E _ _ (child_cByN hc') rfl rfl) (fun b _ hb => ?_)
  cases sc with
  | none =>
    cases it with
    | none =>
      simp only [Option.isSome, Bool.or_self, Bool.or_false, Bool.false_or, Bool.or_true, Bool.and_self, Bool.and_true, Bool.and_false, Bool.true_and, Bool.false_and, Bool.false_eq_true, if_true, if_false, opt]
      et E hn
    | some i =>
      have hi := OptK_get hit
      simp only [Option.isSome, Bool.or_self, Bool.or_false, Bool.false_or, Bool.or_true, Bool.and_self, Bool.and_true, Bool.and_false, Bool.true_and, Bool.false_and, Bool.false_eq_true, if_true, if_false, opt]
      et E hn
  | some s =>
    have hs := OptK_get hsc
    cases it with
    | none =>
      simp only [Option.isSome, Bool.or_self, Bool.or_false, Bool.false_or, Bool.or_true, Bool.and_self, Bool.and_true, Bool.and_false, Bool.true_and, Bool.false_and, Bool.false_eq_true, if_true, if_false, opt]
      et E hn
    | some i =>
      have hi := OptK_get hit
      simp only [Option.isSome, Bool.or_self, Bool.or_false, Bool.false_or, Bool.or_true, Bool.and_self, Bool.and_true, Bool.and_false, Bool.true_and, Bool.false_and, Bool.false_eq_true, if_true, if_false, opt]
      et E hn

theorem methodDeclaration_t (E : Env root n .N rec) (hn : In root n) : P (New.methodDeclaration rec n) (Kid (pst n.id)) := by
  unfold New.methodDeclaration
  et E hn

theorem formalParameters_t (E : Env root n .N rec) (hn : In root n) : P (New.formalParameters rec n) (Kid (pst n.id)) := by
  unfold New.formalParameters
  et E hn

theorem formalParameter_t (E : Env root n .N rec) (hn : In root n) : P (New.formalParameter rec n) (Kid (pst n.id)) := by
  unfold New.formalParameter
  et E hn

theorem superClass_t (E : Env root n .N rec) (hn : In root n) : P (New.superClass rec n) (Kid (pst n.id)) := by
  unfold New.superClass
  et E hn

theorem modifier_t (E : Env root n .N rec) (hn : In root n) : P (New.modifier rec n) (Kid (pst n.id)) := by
  unfold New.modifier
  et E hn

theorem annotationKeyValue_t (E : Env root n .N rec) (hn : In root n) : P (New.annotationKeyValue rec n) (Kid (pst n.id)) := by
  unfold New.annotationKeyValue
  et E hn

theorem classBody_t (E : Env root n .Q rec) (hn : In root n) : P (New.classBody cfg rec n) (Kid (pst n.id)) := by
  unfold New.classBody
  et E hn

theorem fieldDeclaration_t (E : Env root n .N rec) (hn : In root n) : P (New.fieldDeclaration rec n) (Kid (pst n.id)) := by
  unfold New.fieldDeclaration
  et E hn

theorem arrayInitializer_t (E : Env root n .N rec) (hn : In root n) : P (New.arrayInitializer rec n) (Kid (pst n.id)) := by
  unfold New.arrayInitializer
  et E hn

theorem assignmentExpression_t (E : Env root n .N rec) (hn : In root n) : P (New.assignmentExpression rec n) (Kid (pst n.id)) := by
  unfold New.assignmentExpression
  et E hn

theorem assignmentLeft_t (E : Env root n .N rec) (hn : In root n) : P (New.assignmentLeft rec n) (Kid (pst n.id)) := by
  unfold New.assignmentLeft
  et E hn

theorem boolType_t (E : Env root n .N rec) (hn : In root n) : P (New.boolType n) (Kid (pst n.id)) := by
  unfold New.boolType
  et E hn

theorem block_t (E : Env root n .Q rec) (hn : In root n) : P (New.block cfg rec n) (Kid (pst n.id)) := by
  unfold New.block
  et E hn

theorem interface_t (E : Env root n .N rec) (hn : In root n) : P (New.interface rec n) (Kid (pst n.id)) := by
  unfold New.interface
  et E hn

theorem typeList_t (E : Env root n .N rec) (hn : In root n) : P (New.typeList rec n) (Kid (pst n.id)) := by
  unfold New.typeList
  et E hn

theorem objectExpression_t (E : Env root n .N rec) (hn : In root n) : P (New.objectExpression rec n) (Kid (pst n.id)) := by
  unfold New.objectExpression
  et E hn

theorem typeArguments_t (E : Env root n .N rec) (hn : In root n) : P (New.typeArguments rec n) (Kid (pst n.id)) := by
  unfold New.typeArguments
  et E hn

theorem argumentList_t (E : Env root n .N rec) (hn : In root n) : P (New.argumentList rec n) (Kid (pst n.id)) := by
  unfold New.argumentList
  et E hn

theorem super_t (E : Env root n .N rec) (hn : In root n) : P (New.super n) (Kid (pst n.id)) := by
  unfold New.super
  et E hn

theorem this_t (E : Env root n .N rec) (hn : In root n) : P (New.this n) (Kid (pst n.id)) := by
  unfold New.this
  et E hn

theorem binaryExpression_t (E : Env root n .N rec) (hn : In root n) : P (New.binaryExpression rec n) (Kid (pst n.id)) := by
  unfold New.binaryExpression
  et E hn

theorem localVariableDeclaration_t (E : Env root n .N rec) (hn : In root n) : P (New.localVariableDeclaration rec n) (Kid (pst n.id)) := by
  unfold New.localVariableDeclaration
  et E hn

theorem genericType_t (E : Env root n .N rec) (hn : In root n) : P (New.genericType rec n) (Kid (pst n.id)) := by
  unfold New.genericType
  et E hn

theorem parenthesizedExpression_t (E : Env root n .N rec) (hn : In root n) : P (New.parenthesizedExpression rec n) (Kid (pst n.id)) := by
  unfold New.parenthesizedExpression
  et E hn

theorem forInitOption_t (E : Env root n x rec) (hn : In root n) : P (New.forInitOption rec n) (Kid (pst n.id)) := by
  unfold New.forInitOption
  et E hn

theorem updateExpressionVariant_t (E : Env root n .N rec) (hn : In root n) : P (New.updateExpressionVariant rec n) (Kid (pst n.id)) := by
  unfold New.updateExpressionVariant
  et E hn

theorem scopedTypeIdentifier_t (E : Env root n .N rec) (hn : In root n) : P (New.scopedTypeIdentifier rec n) (Kid (pst n.id)) := by
  unfold New.scopedTypeIdentifier
  et E hn

theorem constructorDeclaration_t (E : Env root n .N rec) (hn : In root n) : P (New.constructorDeclaration rec n) (Kid (pst n.id)) := by
  unfold New.constructorDeclaration
  et E hn

theorem typeParameters_t (E : Env root n .N rec) (hn : In root n) : P (New.typeParameters rec n) (Kid (pst n.id)) := by
  unfold New.typeParameters
  et E hn

theorem objectCreationExpression_t (E : Env root n .N rec) (hn : In root n) : P (New.objectCreationExpression rec n) (Kid (pst n.id)) := by
  unfold New.objectCreationExpression
  et E hn

theorem runAsStatement_t (E : Env root n .N rec) (hn : In root n) : P (New.runAsStatement rec n) (Kid (pst n.id)) := by
  unfold New.runAsStatement
  et E hn

theorem doStatement_t (E : Env root n .N rec) (hn : In root n) : P (New.doStatement rec n) (Kid (pst n.id)) := by
  unfold New.doStatement
  et E hn

theorem whileStatement_t (E : Env root n .N rec) (hn : In root n) : P (New.whileStatement rec n) (Kid (pst n.id)) := by
  unfold New.whileStatement
  et E hn

theorem unaryExpression_t (E : Env root n .N rec) (hn : In root n) : P (New.unaryExpression rec n) (Kid (pst n.id)) := by
  unfold New.unaryExpression
  et E hn

theorem fieldOption_t (E : Env root n .N rec) (hn : In root n) : P (New.fieldOption rec n) (Kid (pst n.id)) := by
  unfold New.fieldOption
  et E hn

theorem enumDeclaration_t (E : Env root n .N rec) (hn : In root n) : P (New.enumDeclaration rec n) (Kid (pst n.id)) := by
  unfold New.enumDeclaration
  et E hn

theorem enumBody_t (E : Env root n .N rec) (hn : In root n) : P (New.enumBody rec n) (Kid (pst n.id)) := by
  unfold New.enumBody
  et E hn

theorem enumConstant_t (E : Env root n .N rec) (hn : In root n) : P (New.enumConstant rec n) (Kid (pst n.id)) := by
  unfold New.enumConstant
  et E hn

theorem dmlExpressionVariant_t (E : Env root n .N rec) (hn : In root n) : P (New.dmlExpressionVariant rec n) (Kid (pst n.id)) := by
  unfold New.dmlExpressionVariant
  et E hn

theorem dmlSecurityMode_t (E : Env root n .N rec) (hn : In root n) : P (New.dmlSecurityMode n) (Kid (pst n.id)) := by
  unfold New.dmlSecurityMode
  et E hn

theorem dmlTypeVariant_t (E : Env root n .N rec) (hn : In root n) : P (New.dmlTypeVariant n) (Kid (pst n.id)) := by
  unfold New.dmlTypeVariant
  et E hn

theorem arrayAccess_t (E : Env root n .N rec) (hn : In root n) : P (New.arrayAccess rec n) (Kid (pst n.id)) := by
  unfold New.arrayAccess
  et E hn

theorem arrayCreationExpression_t (E : Env root n .N rec) (hn : In root n) : P (New.arrayCreationExpression rec n) (Kid (pst n.id)) := by
  unfold New.arrayCreationExpression
  et E hn

theorem dimensions_t (E : Env root n .N rec) (hn : In root n) : P (New.dimensions n) (Kid (pst n.id)) := by
  unfold New.dimensions
  et E hn

theorem dimensionsExpr_t (E : Env root n .N rec) (hn : In root n) : P (New.dimensionsExpr rec n) (Kid (pst n.id)) := by
  unfold New.dimensionsExpr
  et E hn

theorem returnStatement_t (E : Env root n .N rec) (hn : In root n) : P (New.returnStatement rec n) (Kid (pst n.id)) := by
  unfold New.returnStatement
  et E hn

theorem ternaryExpression_t (E : Env root n .N rec) (hn : In root n) : P (New.ternaryExpression rec n) (Kid (pst n.id)) := by
  unfold New.ternaryExpression
  et E hn

theorem catchClause_t (E : Env root n .N rec) (hn : In root n) (hq : Quiet n.id) : P (New.catchClause rec n) Led := by
  unfold New.catchClause
  et E hn

theorem finallyClause_t (E : Env root n .N rec) (hn : In root n) (hq : Quiet n.id) : P (New.finallyClause rec n) Led := by
  unfold New.finallyClause
  et E hn

theorem staticInitializer_t (E : Env root n .N rec) (hn : In root n) : P (New.staticInitializer rec n) (Kid (pst n.id)) := by
  unfold New.staticInitializer
  et E hn

theorem interfaceDeclaration_t (E : Env root n .N rec) (hn : In root n) : P (New.interfaceDeclaration rec n) (Kid (pst n.id)) := by
  unfold New.interfaceDeclaration
  et E hn

theorem extendsInterface_t (E : Env root n .N rec) (hn : In root n) (hq : Quiet n.id) : P (New.extendsInterface rec n) Led := by
  unfold New.extendsInterface
  et E hn

end Afmt.Ends
