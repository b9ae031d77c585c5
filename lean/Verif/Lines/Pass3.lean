import Verif.Ast.Knot
import Verif.Lines.Tac

/-!
# Line breaks of the programs of the constructors: by the tactic
-/

set_option linter.unusedVariables false
set_option linter.unusedSimpArgs false

namespace Afmt.Lines
open Afmt.Prog
set_option maxRecDepth 4000
variable {root : Node} {rec : Rec} {n : Loc} {cfg : Cfg}

theorem interfaceBody_t (E : Env root rec) (hn : In root n) : P (New.interfaceBody cfg rec n) (Kid .I) := by
  unfold New.interfaceBody
  tt E hn

theorem interfaceMember_t (E : Env root rec) (hn : In root n) : P (New.interfaceMember rec n) (Kid .I) := by
  unfold New.interfaceMember
  tt E hn

theorem constantDeclaration_t (E : Env root rec) (hn : In root n) : P (New.constantDeclaration rec n) (Kid .I) := by
  unfold New.constantDeclaration
  tt E hn

theorem accessorList_t (E : Env root rec) (hn : In root n) : P (New.accessorList rec n) (Kid .I) := by
  unfold New.accessorList
  tt E hn

theorem accessorDeclaration_t (E : Env root rec) (hn : In root n) : P (New.accessorDeclaration rec n) (Kid .I) := by
  unfold New.accessorDeclaration
  tt E hn

theorem castExpression_t (E : Env root rec) (hn : In root n) : P (New.castExpression rec n) (Kid .I) := by
  unfold New.castExpression
  tt E hn

theorem throwStatement_t (E : Env root rec) (hn : In root n) : P (New.throwStatement rec n) (Kid .I) := by
  unfold New.throwStatement
  tt E hn

theorem switchExpression_t (E : Env root rec) (hn : In root n) : P (New.switchExpression rec n) (Kid .I) := by
  unfold New.switchExpression
  tt E hn

theorem switchBlock_t (E : Env root rec) (hn : In root n) : P (New.switchBlock rec n) (Kid .I) := by
  unfold New.switchBlock
  tt E hn

theorem switchRule_t (E : Env root rec) (hn : In root n) : P (New.switchRule rec n) (Kid .I) := by
  unfold New.switchRule
  tt E hn

theorem switchLabel_t (E : Env root rec) (hn : In root n) : P (New.switchLabel rec n) (Kid .I) := by
  unfold New.switchLabel
  tt E hn

theorem instanceOfExpression_t (E : Env root rec) (hn : In root n) : P (New.instanceOfExpression rec n) (Kid .I) := by
  unfold New.instanceOfExpression
  tt E hn

theorem javaFieldAccess_t (E : Env root rec) (hn : In root n) : P (New.javaFieldAccess rec n) (Kid .I) := by
  unfold New.javaFieldAccess
  tt E hn

theorem javaType_t (E : Env root rec) (hn : In root n) : P (New.javaType rec n) (Kid .I) := by
  unfold New.javaType
  tt E hn

theorem arrayType_t (E : Env root rec) (hn : In root n) : P (New.arrayType rec n) (Kid .I) := by
  unfold New.arrayType
  tt E hn

theorem triggerDeclaration_t (E : Env root rec) (hn : In root n) : P (New.triggerDeclaration rec n) (Kid .I) := by
  unfold New.triggerDeclaration
  tt E hn

theorem triggerEvent_t (E : Env root rec) (hn : In root n) : P (New.triggerEvent rec n) (Kid .I) := by
  unfold New.triggerEvent
  tt E hn

theorem triggerBody_t (E : Env root rec) (hn : In root n) : P (New.triggerBody rec n) (Kid .I) := by
  unfold New.triggerBody
  tt E hn

theorem queryExpression_t (E : Env root rec) (hn : In root n) : P (New.queryExpression rec n) (Kid .I) := by
  unfold New.queryExpression
  tt E hn

theorem soslQueryBody_t (E : Env root rec) (hn : In root n) : P (New.soslQueryBody rec n) (Kid .I) := by
  unfold New.soslQueryBody
  tt E hn

theorem findClause_t (E : Env root rec) (hn : In root n) : P (New.findClause rec n) (Kid .I) := by
  unfold New.findClause
  tt E hn

theorem inClause_t (E : Env root rec) (hn : In root n) : P (New.inClause rec n) (Kid .I) := by
  unfold New.inClause
  tt E hn

theorem returningClause_t (E : Env root rec) (hn : In root n) : P (New.returningClause rec n) (Kid .I) := by
  unfold New.returningClause
  tt E hn

theorem soqlQueryBody_t (E : Env root rec) (hn : In root n) : P (New.soqlQueryBody rec n) (Kid .I) := by
  unfold New.soqlQueryBody
  tt E hn

theorem fromClause_t (E : Env root rec) (hn : In root n) : P (New.fromClause rec n) (Kid .I) := by
  unfold New.fromClause
  tt E hn

theorem storageAlias_t (E : Env root rec) (hn : In root n) : P (New.storageAlias rec n) (Kid .I) := by
  unfold New.storageAlias
  tt E hn

theorem limitClause_t (E : Env root rec) (hn : In root n) : P (New.limitClause rec n) (Kid .I) := by
  unfold New.limitClause
  tt E hn

theorem updateClause_t (E : Env root rec) (hn : In root n) : P (New.updateClause rec n) (Kid .I) := by
  unfold New.updateClause
  tt E hn

theorem boundApexExpression_t (E : Env root rec) (hn : In root n) : P (New.boundApexExpression rec n) (Kid .I) := by
  unfold New.boundApexExpression
  tt E hn

theorem soslUsingClause_t (E : Env root rec) (hn : In root n) : P (New.soslUsingClause rec n) (Kid .I) := by
  unfold New.soslUsingClause
  tt E hn

theorem usingSearch_t (E : Env root rec) (hn : In root n) : P (New.usingSearch n) (Kid .I) := by
  unfold New.usingSearch
  tt E hn

theorem usingClause_t (E : Env root rec) (hn : In root n) : P (New.usingClause rec n) (Kid .I) := by
  unfold New.usingClause
  tt E hn

theorem usingClauseOption_t (E : Env root rec) (hn : In root n) : P (New.usingClauseOption rec n) (Kid .I) := by
  unfold New.usingClauseOption
  tt E hn

theorem usingScopeClause_t (E : Env root rec) (hn : In root n) : P (New.usingScopeClause rec n) (Kid .I) := by
  unfold New.usingScopeClause
  tt E hn

theorem usingLookupClause_t (E : Env root rec) (hn : In root n) : P (New.usingLookupClause rec n) (Kid .I) := by
  unfold New.usingLookupClause
  tt E hn

theorem usingListviewClause_t (E : Env root rec) (hn : In root n) : P (New.usingListviewClause rec n) (Kid .I) := by
  unfold New.usingListviewClause
  tt E hn

theorem usingLookupBindClause_t (E : Env root rec) (hn : In root n) : P (New.usingLookupBindClause rec n) (Kid .I) := by
  unfold New.usingLookupBindClause
  tt E hn

theorem usingLookupBindExpression_t (E : Env root rec) (hn : In root n) : P (New.usingLookupBindExpression rec n) (Kid .I) := by
  unfold New.usingLookupBindExpression
  tt E hn

theorem whereClause_t (E : Env root rec) (hn : In root n) : P (New.whereClause rec n) (Kid .I) := by
  unfold New.whereClause
  tt E hn

theorem comparisonExpression_t (E : Env root rec) (hn : In root n) : P (New.comparisonExpression rec n) (Kid .I) := by
  unfold New.comparisonExpression
  tt E hn

theorem comparableList_t (E : Env root rec) (hn : In root n) : P (New.comparableList rec n) (Kid .I) := by
  unfold New.comparableList
  tt E hn

theorem orderByClause_t (E : Env root rec) (hn : In root n) : P (New.orderByClause rec n) (Kid .I) := by
  unfold New.orderByClause
  tt E hn

theorem orderExpression_t (E : Env root rec) (hn : In root n) : P (New.orderExpression rec n) (Kid .I) := by
  unfold New.orderExpression
  tt E hn

theorem subQuery_t (E : Env root rec) (hn : In root n) : P (New.subQuery rec n) (Kid .I) := by
  unfold New.subQuery
  tt E hn

theorem mapCreationExpression_t (E : Env root rec) (hn : In root n) : P (New.mapCreationExpression rec n) (Kid .I) := by
  unfold New.mapCreationExpression
  tt E hn

theorem mapInitializer_t (E : Env root rec) (hn : In root n) : P (New.mapInitializer rec n) (Kid .I) := by
  unfold New.mapInitializer
  tt E hn

theorem havingClause_t (E : Env root rec) (hn : In root n) : P (New.havingClause rec n) (Kid .I) := by
  unfold New.havingClause
  tt E hn

theorem soslWithClause_t (E : Env root rec) (hn : In root n) : P (New.soslWithClause rec n) (Kid .I) := by
  unfold New.soslWithClause
  tt E hn

theorem soqlWithClause_t (E : Env root rec) (hn : In root n) : P (New.soqlWithClause rec n) (Kid .I) := by
  unfold New.soqlWithClause
  tt E hn

theorem soqlWithTypeVariant_t (E : Env root rec) (hn : In root n) : P (New.soqlWithTypeVariant rec n) (Kid .I) := by
  unfold New.soqlWithTypeVariant
  tt E hn

theorem soslWithType_t (E : Env root rec) (hn : In root n) : P (New.soslWithType rec n) (Kid .I) := by
  unfold New.soslWithType
  tt E hn

theorem withDataCatExpression_t (E : Env root rec) (hn : In root n) : P (New.withDataCatExpression rec n) (Kid .I) := by
  unfold New.withDataCatExpression
  tt E hn

theorem withDivisionExpression_t (E : Env root rec) (hn : In root n) : P (New.withDivisionExpression rec n) (Kid .I) := by
  unfold New.withDivisionExpression
  tt E hn

theorem withSnippetExpression_t (E : Env root rec) (hn : In root n) : P (New.withSnippetExpression rec n) (Kid .I) := by
  unfold New.withSnippetExpression
  tt E hn

end Afmt.Lines
