import Verif.Ast.Knot
import Verif.Notes.Tac

/-!
# Line breaks of the programs of the constructors: by the tactic
-/

set_option linter.unusedVariables false
set_option linter.unusedSectionVars false
set_option linter.unusedSimpArgs false

namespace Afmt.Notes
open Afmt.Prog
open Afmt.Lines (P P_bind P_ok P_pure P_err P_any P_mono Tidy InL InO fullKinds TidyTree InL_vec InL_named InL_try InL_filter InL_drop InL_tail InL_head InL_last InO_K InO_N InO_first mapR_ne Tidy_lower Tidy_upper Tidy_quote Tidy_colon P_get P_of P_guard)
set_option maxRecDepth 4000
variable [K : Src] {root : Node} {rec : Rec} {n : Loc} {x : St} {cfg : Cfg}

theorem interfaceBody_t (E : Env root n .P rec) (hn : In root n) : P (New.interfaceBody cfg rec n) (Kid (pst n.id)) := by
  unfold New.interfaceBody
  ntt E hn

theorem interfaceMember_t (E : Env root n .I rec) (hn : In root n) : P (New.interfaceMember rec n) (Kid (pst n.id)) := by
  unfold New.interfaceMember
  ntt E hn

theorem constantDeclaration_t (E : Env root n .I rec) (hn : In root n) : P (New.constantDeclaration rec n) (Kid (pst n.id)) := by
  unfold New.constantDeclaration
  ntt E hn

theorem accessorList_t (E : Env root n .I rec) (hn : In root n) : P (New.accessorList rec n) (Kid (pst n.id)) := by
  unfold New.accessorList
  ntt E hn

theorem accessorDeclaration_t (E : Env root n .I rec) (hn : In root n) : P (New.accessorDeclaration rec n) (Kid (pst n.id)) := by
  unfold New.accessorDeclaration
  ntt E hn

theorem castExpression_t (E : Env root n .I rec) (hn : In root n) : P (New.castExpression rec n) (Kid (pst n.id)) := by
  unfold New.castExpression
  ntt E hn

theorem throwStatement_t (E : Env root n .I rec) (hn : In root n) : P (New.throwStatement rec n) (Kid (pst n.id)) := by
  unfold New.throwStatement
  ntt E hn

theorem switchExpression_t (E : Env root n .I rec) (hn : In root n) : P (New.switchExpression rec n) (Kid (pst n.id)) := by
  unfold New.switchExpression
  ntt E hn

theorem switchBlock_t (E : Env root n .I rec) (hn : In root n) : P (New.switchBlock rec n) (Kid (pst n.id)) := by
  unfold New.switchBlock
  ntt E hn

theorem switchRule_t (E : Env root n .I rec) (hn : In root n) : P (New.switchRule rec n) (Kid (pst n.id)) := by
  unfold New.switchRule
  ntt E hn

theorem switchLabel_t (E : Env root n .I rec) (hn : In root n) : P (New.switchLabel rec n) (Kid (pst n.id)) := by
  unfold New.switchLabel
  ntt E hn

theorem instanceOfExpression_t (E : Env root n .I rec) (hn : In root n) : P (New.instanceOfExpression rec n) (Kid (pst n.id)) := by
  unfold New.instanceOfExpression
  ntt E hn

theorem javaFieldAccess_t (E : Env root n .I rec) (hn : In root n) : P (New.javaFieldAccess rec n) (Kid (pst n.id)) := by
  unfold New.javaFieldAccess
  ntt E hn

theorem javaType_t (E : Env root n .I rec) (hn : In root n) : P (New.javaType rec n) (Kid (pst n.id)) := by
  unfold New.javaType
  ntt E hn

theorem arrayType_t (E : Env root n .I rec) (hn : In root n) : P (New.arrayType rec n) (Kid (pst n.id)) := by
  unfold New.arrayType
  ntt E hn

theorem triggerDeclaration_t (E : Env root n .I rec) (hn : In root n) : P (New.triggerDeclaration rec n) (Kid (pst n.id)) := by
  unfold New.triggerDeclaration
  ntt E hn

theorem triggerEvent_t (E : Env root n .I rec) (hn : In root n) : P (New.triggerEvent rec n) (Kid (pst n.id)) := by
  unfold New.triggerEvent
  ntt E hn

theorem triggerBody_t (E : Env root n .I rec) (hn : In root n) : P (New.triggerBody rec n) (Kid (pst n.id)) := by
  unfold New.triggerBody
  ntt E hn

theorem queryExpression_t (E : Env root n .I rec) (hn : In root n) : P (New.queryExpression rec n) (Kid (pst n.id)) := by
  unfold New.queryExpression
  ntt E hn

theorem soslQueryBody_t (E : Env root n .I rec) (hn : In root n) : P (New.soslQueryBody rec n) (Kid (pst n.id)) := by
  unfold New.soslQueryBody
  ntt E hn

theorem findClause_t (E : Env root n .I rec) (hn : In root n) : P (New.findClause rec n) (Kid (pst n.id)) := by
  unfold New.findClause
  ntt E hn

theorem inClause_t (E : Env root n .I rec) (hn : In root n) : P (New.inClause rec n) (Kid (pst n.id)) := by
  unfold New.inClause
  ntt E hn

theorem returningClause_t (E : Env root n .I rec) (hn : In root n) : P (New.returningClause rec n) (Kid (pst n.id)) := by
  unfold New.returningClause
  ntt E hn

theorem soqlQueryBody_t (E : Env root n .I rec) (hn : In root n) : P (New.soqlQueryBody rec n) (Kid (pst n.id)) := by
  unfold New.soqlQueryBody
  ntt E hn

theorem fromClause_t (E : Env root n .I rec) (hn : In root n) : P (New.fromClause rec n) (Kid (pst n.id)) := by
  unfold New.fromClause
  ntt E hn

theorem storageAlias_t (E : Env root n .I rec) (hn : In root n) : P (New.storageAlias rec n) (Kid (pst n.id)) := by
  unfold New.storageAlias
  ntt E hn

theorem limitClause_t (E : Env root n .I rec) (hn : In root n) : P (New.limitClause rec n) (Kid (pst n.id)) := by
  unfold New.limitClause
  ntt E hn

theorem updateClause_t (E : Env root n .I rec) (hn : In root n) : P (New.updateClause rec n) (Kid (pst n.id)) := by
  unfold New.updateClause
  ntt E hn

theorem boundApexExpression_t (E : Env root n .I rec) (hn : In root n) : P (New.boundApexExpression rec n) (Kid (pst n.id)) := by
  unfold New.boundApexExpression
  ntt E hn

theorem soslUsingClause_t (E : Env root n .I rec) (hn : In root n) : P (New.soslUsingClause rec n) (Kid (pst n.id)) := by
  unfold New.soslUsingClause
  ntt E hn

theorem usingSearch_t (E : Env root n .I rec) (hn : In root n) : P (New.usingSearch n) (Kid (pst n.id)) := by
  unfold New.usingSearch
  ntt E hn

theorem usingClause_t (E : Env root n .I rec) (hn : In root n) : P (New.usingClause rec n) (Kid (pst n.id)) := by
  unfold New.usingClause
  ntt E hn

theorem usingClauseOption_t (E : Env root n .I rec) (hn : In root n) : P (New.usingClauseOption rec n) (Kid (pst n.id)) := by
  unfold New.usingClauseOption
  ntt E hn

theorem usingScopeClause_t (E : Env root n .I rec) (hn : In root n) : P (New.usingScopeClause rec n) (Kid (pst n.id)) := by
  unfold New.usingScopeClause
  ntt E hn

theorem usingLookupClause_t (E : Env root n .I rec) (hn : In root n) : P (New.usingLookupClause rec n) (Kid (pst n.id)) := by
  unfold New.usingLookupClause
  ntt E hn

theorem usingListviewClause_t (E : Env root n .I rec) (hn : In root n) : P (New.usingListviewClause rec n) (Kid (pst n.id)) := by
  unfold New.usingListviewClause
  ntt E hn

theorem usingLookupBindClause_t (E : Env root n .I rec) (hn : In root n) : P (New.usingLookupBindClause rec n) (Kid (pst n.id)) := by
  unfold New.usingLookupBindClause
  ntt E hn

theorem usingLookupBindExpression_t (E : Env root n .I rec) (hn : In root n) : P (New.usingLookupBindExpression rec n) (Kid (pst n.id)) := by
  unfold New.usingLookupBindExpression
  ntt E hn

theorem whereClause_t (E : Env root n .I rec) (hn : In root n) : P (New.whereClause rec n) (Kid (pst n.id)) := by
  unfold New.whereClause
  ntt E hn

theorem comparisonExpression_t (E : Env root n .I rec) (hn : In root n) (hq : Quiet n.id) : P (New.comparisonExpression rec n) (Kid (pst n.id)) := by
  unfold New.comparisonExpression
  ntt E hn
  all_goals (rw [pst_quiet hq] at *; repeat' nts)

theorem comparableList_t (E : Env root n .I rec) (hn : In root n) : P (New.comparableList rec n) (Kid (pst n.id)) := by
  unfold New.comparableList
  ntt E hn

theorem orderByClause_t (E : Env root n .I rec) (hn : In root n) : P (New.orderByClause rec n) (Kid (pst n.id)) := by
  unfold New.orderByClause
  ntt E hn

theorem orderExpression_t (E : Env root n .I rec) (hn : In root n) : P (New.orderExpression rec n) (Kid (pst n.id)) := by
  unfold New.orderExpression
  ntt E hn

theorem subQuery_t (E : Env root n .I rec) (hn : In root n) : P (New.subQuery rec n) (Kid (pst n.id)) := by
  unfold New.subQuery
  ntt E hn

theorem mapCreationExpression_t (E : Env root n .I rec) (hn : In root n) : P (New.mapCreationExpression rec n) (Kid (pst n.id)) := by
  unfold New.mapCreationExpression
  ntt E hn

theorem mapInitializer_t (E : Env root n .I rec) (hn : In root n) : P (New.mapInitializer rec n) (Kid (pst n.id)) := by
  unfold New.mapInitializer
  ntt E hn

theorem havingClause_t (E : Env root n .I rec) (hn : In root n) : P (New.havingClause rec n) (Kid (pst n.id)) := by
  unfold New.havingClause
  ntt E hn

theorem soslWithClause_t (E : Env root n .I rec) (hn : In root n) : P (New.soslWithClause rec n) (Kid (pst n.id)) := by
  unfold New.soslWithClause
  ntt E hn

theorem soqlWithClause_t (E : Env root n .I rec) (hn : In root n) : P (New.soqlWithClause rec n) (Kid (pst n.id)) := by
  unfold New.soqlWithClause
  ntt E hn

theorem soqlWithTypeVariant_t (E : Env root n .I rec) (hn : In root n) : P (New.soqlWithTypeVariant rec n) (Kid (pst n.id)) := by
  unfold New.soqlWithTypeVariant
  ntt E hn
  exact E.calm _ _ ‹_› (by rw [kind_tryCByK (try_of_cByK (by assumption))]; decide) rfl

theorem soslWithType_t (E : Env root n .I rec) (hn : In root n) : P (New.soslWithType rec n) (Kid (pst n.id)) := by
  unfold New.soslWithType
  ntt E hn

theorem withDataCatExpression_t (E : Env root n .I rec) (hn : In root n) : P (New.withDataCatExpression rec n) (Kid (pst n.id)) := by
  unfold New.withDataCatExpression
  ntt E hn

theorem withDivisionExpression_t (E : Env root n .I rec) (hn : In root n) : P (New.withDivisionExpression rec n) (Kid (pst n.id)) := by
  unfold New.withDivisionExpression
  ntt E hn

theorem withSnippetExpression_t (E : Env root n .I rec) (hn : In root n) : P (New.withSnippetExpression rec n) (Kid (pst n.id)) := by
  unfold New.withSnippetExpression
  ntt E hn

end Afmt.Notes
