import Verif.Ast.Knot
import Verif.Words.Tac

/-!
# Word boundaries of the programs of the constructors: by the tactic
-/

set_option linter.unusedVariables false
set_option linter.unusedSimpArgs false

namespace Afmt.Words
open Afmt.Prog
open Afmt.Lines (P P_bind P_ok P_err P_any P_mono P_get InL_vec InL_named InL_try InL_filter InL_drop InL_tail InL_head InL_last InO_K InO_N)
set_option maxRecDepth 4000
variable {root : Node} {rec : Rec} {n : Loc} {cfg : Cfg}

theorem interfaceBody_t (E : Env root rec) (hn : In root n) : P (New.interfaceBody cfg rec n) (Kid .S .U) := by
  unfold New.interfaceBody
  wtt E hn

theorem interfaceMember_t (E : Env root rec) (hn : In root n) : P (New.interfaceMember rec n) (Kid .S .U) := by
  unfold New.interfaceMember
  wtt E hn

theorem constantDeclaration_t (E : Env root rec) (hn : In root n) : P (New.constantDeclaration rec n) (Kid .S .U) := by
  unfold New.constantDeclaration
  wtt E hn

theorem accessorList_t (E : Env root rec) (hn : In root n) : P (New.accessorList rec n) (Kid .S .U) := by
  unfold New.accessorList
  wtt E hn

theorem accessorDeclaration_t (E : Env root rec) (hn : In root n) : P (New.accessorDeclaration rec n) (Kid .S .U) := by
  unfold New.accessorDeclaration
  wtt E hn

theorem castExpression_t (E : Env root rec) (hn : In root n) : P (New.castExpression rec n) (Kid .S .U) := by
  unfold New.castExpression
  wtt E hn

theorem throwStatement_t (E : Env root rec) (hn : In root n) : P (New.throwStatement rec n) (Kid .S .U) := by
  unfold New.throwStatement
  wtt E hn

theorem switchExpression_t (E : Env root rec) (hn : In root n) : P (New.switchExpression rec n) (Kid .S .U) := by
  unfold New.switchExpression
  wtt E hn

theorem switchBlock_t (E : Env root rec) (hn : In root n) : P (New.switchBlock rec n) (Kid .S .U) := by
  unfold New.switchBlock
  wtt E hn

theorem switchRule_t (E : Env root rec) (hn : In root n) : P (New.switchRule rec n) (Kid .S .U) := by
  unfold New.switchRule
  wtt E hn

theorem switchLabel_t (E : Env root rec) (hn : In root n) : P (New.switchLabel rec n) (Kid .S .U) := by
  unfold New.switchLabel
  wtt E hn

theorem instanceOfExpression_t (E : Env root rec) (hn : In root n) : P (New.instanceOfExpression rec n) (Kid .S .U) := by
  unfold New.instanceOfExpression
  wtt E hn

theorem javaFieldAccess_t (E : Env root rec) (hn : In root n) : P (New.javaFieldAccess rec n) (Kid .S .U) := by
  unfold New.javaFieldAccess
  wtt E hn

theorem javaType_t (E : Env root rec) (hn : In root n) : P (New.javaType rec n) (Kid .S .U) := by
  unfold New.javaType
  wtt E hn

theorem arrayType_t (E : Env root rec) (hn : In root n) : P (New.arrayType rec n) (Kid .S .U) := by
  unfold New.arrayType
  wtt E hn

theorem triggerDeclaration_t (E : Env root rec) (hn : In root n) : P (New.triggerDeclaration rec n) (Kid .S .U) := by
  unfold New.triggerDeclaration
  wtt E hn

theorem triggerEvent_t (E : Env root rec) (hn : In root n) : P (New.triggerEvent rec n) (Kid .S .U) := by
  unfold New.triggerEvent
  wtt E hn

theorem triggerBody_t (E : Env root rec) (hn : In root n) : P (New.triggerBody rec n) (Kid .S .U) := by
  unfold New.triggerBody
  wtt E hn

theorem queryExpression_t (E : Env root rec) (hn : In root n) : P (New.queryExpression rec n) (Kid .S .U) := by
  unfold New.queryExpression
  wtt E hn

theorem soslQueryBody_t (E : Env root rec) (hn : In root n) : P (New.soslQueryBody rec n) (Kid .S .U) := by
  unfold New.soslQueryBody
  wtt E hn

theorem findClause_t (E : Env root rec) (hn : In root n) : P (New.findClause rec n) (Kid .S .U) := by
  unfold New.findClause
  wtt E hn

theorem inClause_t (E : Env root rec) (hn : In root n) : P (New.inClause rec n) (Kid .S .U) := by
  unfold New.inClause
  wtt E hn

theorem returningClause_t (E : Env root rec) (hn : In root n) : P (New.returningClause rec n) (Kid .S .U) := by
  unfold New.returningClause
  wtt E hn

theorem soqlQueryBody_t (E : Env root rec) (hn : In root n) : P (New.soqlQueryBody rec n) (Kid .S .U) := by
  unfold New.soqlQueryBody
  wtt E hn

theorem fromClause_t (E : Env root rec) (hn : In root n) : P (New.fromClause rec n) (Kid .S .U) := by
  unfold New.fromClause
  wtt E hn

theorem storageAlias_t (E : Env root rec) (hn : In root n) : P (New.storageAlias rec n) (Kid .S .U) := by
  unfold New.storageAlias
  wtt E hn

theorem limitClause_t (E : Env root rec) (hn : In root n) : P (New.limitClause rec n) (Kid .S .U) := by
  unfold New.limitClause
  wtt E hn

theorem updateClause_t (E : Env root rec) (hn : In root n) : P (New.updateClause rec n) (Kid .S .U) := by
  unfold New.updateClause
  wtt E hn

theorem boundApexExpression_t (E : Env root rec) (hn : In root n) : P (New.boundApexExpression rec n) (Kid .U .U) := by
  unfold New.boundApexExpression
  wtt E hn

theorem soslUsingClause_t (E : Env root rec) (hn : In root n) : P (New.soslUsingClause rec n) (Kid .S .U) := by
  unfold New.soslUsingClause
  wtt E hn

theorem usingSearch_t (E : Env root rec) (hn : In root n) : P (New.usingSearch n) (Kid .S .U) := by
  unfold New.usingSearch
  wtt E hn

theorem usingClause_t (E : Env root rec) (hn : In root n) : P (New.usingClause rec n) (Kid .S .U) := by
  unfold New.usingClause
  wtt E hn

theorem usingClauseOption_t (E : Env root rec) (hn : In root n) : P (New.usingClauseOption rec n) (Kid .S .U) := by
  unfold New.usingClauseOption
  wtt E hn

theorem usingScopeClause_t (E : Env root rec) (hn : In root n) : P (New.usingScopeClause rec n) (Kid .S .U) := by
  unfold New.usingScopeClause
  wtt E hn

theorem usingLookupClause_t (E : Env root rec) (hn : In root n) : P (New.usingLookupClause rec n) (Kid .S .U) := by
  unfold New.usingLookupClause
  wtt E hn

theorem usingListviewClause_t (E : Env root rec) (hn : In root n) : P (New.usingListviewClause rec n) (Kid .S .U) := by
  unfold New.usingListviewClause
  wtt E hn

theorem usingLookupBindClause_t (E : Env root rec) (hn : In root n) : P (New.usingLookupBindClause rec n) (Kid .S .U) := by
  unfold New.usingLookupBindClause
  wtt E hn

theorem usingLookupBindExpression_t (E : Env root rec) (hn : In root n) : P (New.usingLookupBindExpression rec n) (Kid .S .U) := by
  unfold New.usingLookupBindExpression
  wtt E hn

theorem whereClause_t (E : Env root rec) (hn : In root n) : P (New.whereClause rec n) (Kid .S .U) := by
  unfold New.whereClause
  wtt E hn

theorem comparisonExpression_t (E : Env root rec) (hn : In root n) : P (New.comparisonExpression rec n) (Kid .S .U) := by
  unfold New.comparisonExpression
  wtt E hn

theorem comparableList_t (E : Env root rec) (hn : In root n) : P (New.comparableList rec n) (Kid .S .U) := by
  unfold New.comparableList
  wtt E hn

theorem orderByClause_t (E : Env root rec) (hn : In root n) : P (New.orderByClause rec n) (Kid .S .U) := by
  unfold New.orderByClause
  wtt E hn

theorem orderExpression_t (E : Env root rec) (hn : In root n) : P (New.orderExpression rec n) (Kid .S .U) := by
  unfold New.orderExpression
  wtt E hn

theorem subQuery_t (E : Env root rec) (hn : In root n) : P (New.subQuery rec n) (Kid .S .U) := by
  unfold New.subQuery
  wtt E hn

theorem mapCreationExpression_t (E : Env root rec) (hn : In root n) : P (New.mapCreationExpression rec n) (Kid .S .U) := by
  unfold New.mapCreationExpression
  wtt E hn

theorem mapInitializer_t (E : Env root rec) (hn : In root n) : P (New.mapInitializer rec n) (Kid .U .U) := by
  unfold New.mapInitializer
  wtt E hn

theorem havingClause_t (E : Env root rec) (hn : In root n) : P (New.havingClause rec n) (Kid .S .U) := by
  unfold New.havingClause
  wtt E hn

theorem soslWithClause_t (E : Env root rec) (hn : In root n) : P (New.soslWithClause rec n) (Kid .S .U) := by
  unfold New.soslWithClause
  wtt E hn

theorem soqlWithClause_t (E : Env root rec) (hn : In root n) : P (New.soqlWithClause rec n) (Kid .S .U) := by
  unfold New.soqlWithClause
  wtt E hn

theorem soqlWithTypeVariant_t (E : Env root rec) (hn : In root n) : P (New.soqlWithTypeVariant rec n) (Kid .S .U) := by
  unfold New.soqlWithTypeVariant
  wtt E hn

theorem soslWithType_t (E : Env root rec) (hn : In root n) : P (New.soslWithType rec n) (Kid .S .U) := by
  unfold New.soslWithType
  wtt E hn

theorem withDataCatExpression_t (E : Env root rec) (hn : In root n) : P (New.withDataCatExpression rec n) (Kid .S .U) := by
  unfold New.withDataCatExpression
  wtt E hn

theorem withDivisionExpression_t (E : Env root rec) (hn : In root n) : P (New.withDivisionExpression rec n) (Kid .S .U) := by
  unfold New.withDivisionExpression
  wtt E hn

theorem withSnippetExpression_t (E : Env root rec) (hn : In root n) : P (New.withSnippetExpression rec n) (Kid .S .U) := by
  unfold New.withSnippetExpression
  wtt E hn

end Afmt.Words
