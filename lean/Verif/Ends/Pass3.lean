import Verif.Ast.Knot
import Verif.Ends.Tac

/-!
# Ends of lines in the programs of the constructors: by the tactic
-/

set_option linter.unusedVariables false
set_option linter.unusedSectionVars false
set_option linter.unusedSimpArgs false

namespace Afmt.Ends
open Afmt.Prog
open Afmt.Notes (Quiet QuietO quietO_none child_vec child_named child_tryCByN child_tryCByK child_cByN child_cByK child_csByK InL_mem InO_mem hush)
open Afmt.Lines (P P_bind P_ok P_pure P_err P_any P_mono P_get P_of P_guard InL InO InL_vec InL_named InL_try InL_filter InL_drop InL_tail InL_head InL_last InO_K InO_N InO_first mapR_ne fullKinds)
open Afmt.Trail (Gate Tight ledCls plainly Tight_lower Tight_upper Tight_quote Tight_colon)
set_option maxRecDepth 4000
variable [Gate] [K : Fair] {root : Node} {rec : Rec} {n : Loc} {x : St} {cfg : Cfg}

theorem interfaceBody_t (E : Env root n .Q rec) (hn : In root n) : P (New.interfaceBody cfg rec n) (Kid (pst n.id)) := by
  unfold New.interfaceBody
  et E hn

theorem interfaceMember_t (E : Env root n .N rec) (hn : In root n) : P (New.interfaceMember rec n) (Kid (pst n.id)) := by
  unfold New.interfaceMember
  et E hn

theorem constantDeclaration_t (E : Env root n .N rec) (hn : In root n) : P (New.constantDeclaration rec n) (Kid (pst n.id)) := by
  unfold New.constantDeclaration
  et E hn

theorem accessorList_t (E : Env root n .N rec) (hn : In root n) : P (New.accessorList rec n) (Kid (pst n.id)) := by
  unfold New.accessorList
  et E hn

theorem accessorDeclaration_t (E : Env root n .N rec) (hn : In root n) : P (New.accessorDeclaration rec n) (Kid (pst n.id)) := by
  unfold New.accessorDeclaration
  et E hn

theorem castExpression_t (E : Env root n .N rec) (hn : In root n) : P (New.castExpression rec n) (Kid (pst n.id)) := by
  unfold New.castExpression
  et E hn

theorem throwStatement_t (E : Env root n .N rec) (hn : In root n) : P (New.throwStatement rec n) (Kid (pst n.id)) := by
  unfold New.throwStatement
  et E hn

theorem switchExpression_t (E : Env root n .N rec) (hn : In root n) : P (New.switchExpression rec n) (Kid (pst n.id)) := by
  unfold New.switchExpression
  et E hn

theorem switchBlock_t (E : Env root n .N rec) (hn : In root n) : P (New.switchBlock rec n) (Kid (pst n.id)) := by
  unfold New.switchBlock
  et E hn

theorem switchRule_t (E : Env root n .N rec) (hn : In root n) : P (New.switchRule rec n) (Kid (pst n.id)) := by
  unfold New.switchRule
  et E hn

theorem switchLabel_t (E : Env root n .N rec) (hn : In root n) : P (New.switchLabel rec n) (Kid (pst n.id)) := by
  unfold New.switchLabel
  et E hn

theorem instanceOfExpression_t (E : Env root n .N rec) (hn : In root n) : P (New.instanceOfExpression rec n) (Kid (pst n.id)) := by
  unfold New.instanceOfExpression
  et E hn

theorem javaFieldAccess_t (E : Env root n .N rec) (hn : In root n) : P (New.javaFieldAccess rec n) (Kid (pst n.id)) := by
  unfold New.javaFieldAccess
  et E hn

theorem javaType_t (E : Env root n .N rec) (hn : In root n) : P (New.javaType rec n) (Kid (pst n.id)) := by
  unfold New.javaType
  et E hn

theorem arrayType_t (E : Env root n .N rec) (hn : In root n) : P (New.arrayType rec n) (Kid (pst n.id)) := by
  unfold New.arrayType
  et E hn

theorem triggerDeclaration_t (E : Env root n .N rec) (hn : In root n) : P (New.triggerDeclaration rec n) (Kid (pst n.id)) := by
  unfold New.triggerDeclaration
  et E hn

theorem triggerEvent_t (E : Env root n .N rec) (hn : In root n) : P (New.triggerEvent rec n) (Kid (pst n.id)) := by
  unfold New.triggerEvent
  et E hn

theorem triggerBody_t (E : Env root n .N rec) (hn : In root n) : P (New.triggerBody rec n) (Kid (pst n.id)) := by
  unfold New.triggerBody
  et E hn

theorem queryExpression_t (E : Env root n .N rec) (hn : In root n) : P (New.queryExpression rec n) (Kid (pst n.id)) := by
  unfold New.queryExpression
  et E hn

theorem soslQueryBody_t (E : Env root n .N rec) (hn : In root n) : P (New.soslQueryBody rec n) (Kid (pst n.id)) := by
  unfold New.soslQueryBody
  et E hn

theorem findClause_t (E : Env root n .N rec) (hn : In root n) : P (New.findClause rec n) (Kid (pst n.id)) := by
  unfold New.findClause
  et E hn

theorem inClause_t (E : Env root n .N rec) (hn : In root n) : P (New.inClause rec n) (Kid (pst n.id)) := by
  unfold New.inClause
  et E hn

theorem returningClause_t (E : Env root n .N rec) (hn : In root n) : P (New.returningClause rec n) (Kid (pst n.id)) := by
  unfold New.returningClause
  et E hn

theorem soqlQueryBody_t (E : Env root n .N rec) (hn : In root n) : P (New.soqlQueryBody rec n) (Kid (pst n.id)) := by
  unfold New.soqlQueryBody
  et E hn

theorem fromClause_t (E : Env root n .N rec) (hn : In root n) : P (New.fromClause rec n) (Kid (pst n.id)) := by
  unfold New.fromClause
  et E hn

theorem storageAlias_t (E : Env root n .N rec) (hn : In root n) : P (New.storageAlias rec n) (Kid (pst n.id)) := by
  unfold New.storageAlias
  et E hn

theorem limitClause_t (E : Env root n .N rec) (hn : In root n) : P (New.limitClause rec n) (Kid (pst n.id)) := by
  unfold New.limitClause
  et E hn

theorem updateClause_t (E : Env root n .N rec) (hn : In root n) : P (New.updateClause rec n) (Kid (pst n.id)) := by
  unfold New.updateClause
  et E hn

theorem boundApexExpression_t (E : Env root n .N rec) (hn : In root n) : P (New.boundApexExpression rec n) (Kid (pst n.id)) := by
  unfold New.boundApexExpression
  et E hn

theorem soslUsingClause_t (E : Env root n .N rec) (hn : In root n) : P (New.soslUsingClause rec n) (Kid (pst n.id)) := by
  unfold New.soslUsingClause
  et E hn

theorem usingSearch_t (E : Env root n .N rec) (hn : In root n) : P (New.usingSearch n) (Kid (pst n.id)) := by
  unfold New.usingSearch
  et E hn

theorem usingClause_t (E : Env root n .N rec) (hn : In root n) : P (New.usingClause rec n) (Kid (pst n.id)) := by
  unfold New.usingClause
  et E hn

theorem usingClauseOption_t (E : Env root n .N rec) (hn : In root n) : P (New.usingClauseOption rec n) (Kid (pst n.id)) := by
  unfold New.usingClauseOption
  et E hn

theorem usingScopeClause_t (E : Env root n .N rec) (hn : In root n) : P (New.usingScopeClause rec n) (Kid (pst n.id)) := by
  unfold New.usingScopeClause
  et E hn

theorem usingListviewClause_t (E : Env root n .N rec) (hn : In root n) : P (New.usingListviewClause rec n) (Kid (pst n.id)) := by
  unfold New.usingListviewClause
  et E hn

theorem usingLookupBindExpression_t (E : Env root n .N rec) (hn : In root n) : P (New.usingLookupBindExpression rec n) (Kid (pst n.id)) := by
  unfold New.usingLookupBindExpression
  et E hn

theorem whereClause_t (E : Env root n .N rec) (hn : In root n) : P (New.whereClause rec n) (Kid (pst n.id)) := by
  unfold New.whereClause
  et E hn

theorem comparisonExpression_t (E : Env root n .N rec) (hn : In root n) (hq : Quiet n.id) : P (New.comparisonExpression rec n) (Kid (pst n.id)) := by
  unfold New.comparisonExpression
  et E hn
  all_goals (rw [pst_quiet hq] at *; repeat' es)

theorem comparableList_t (E : Env root n .N rec) (hn : In root n) : P (New.comparableList rec n) (Kid (pst n.id)) := by
  unfold New.comparableList
  et E hn

theorem orderByClause_t (E : Env root n .N rec) (hn : In root n) : P (New.orderByClause rec n) (Kid (pst n.id)) := by
  unfold New.orderByClause
  et E hn

theorem orderExpression_t (E : Env root n .N rec) (hn : In root n) : P (New.orderExpression rec n) (Kid (pst n.id)) := by
  unfold New.orderExpression
  et E hn

theorem subQuery_t (E : Env root n .N rec) (hn : In root n) : P (New.subQuery rec n) (Kid (pst n.id)) := by
  unfold New.subQuery
  et E hn

theorem mapCreationExpression_t (E : Env root n .N rec) (hn : In root n) : P (New.mapCreationExpression rec n) (Kid (pst n.id)) := by
  unfold New.mapCreationExpression
  et E hn

theorem mapInitializer_t (E : Env root n .N rec) (hn : In root n) : P (New.mapInitializer rec n) (Kid (pst n.id)) := by
  unfold New.mapInitializer
  et E hn

theorem havingClause_t (E : Env root n .N rec) (hn : In root n) : P (New.havingClause rec n) (Kid (pst n.id)) := by
  unfold New.havingClause
  et E hn

theorem soslWithClause_t (E : Env root n .N rec) (hn : In root n) : P (New.soslWithClause rec n) (Kid (pst n.id)) := by
  unfold New.soslWithClause
  et E hn

theorem soqlWithClause_t (E : Env root n .N rec) (hn : In root n) : P (New.soqlWithClause rec n) (Kid (pst n.id)) := by
  unfold New.soqlWithClause
  et E hn

theorem soqlWithTypeVariant_t (E : Env root n .N rec) (hn : In root n) : P (New.soqlWithTypeVariant rec n) (Kid (pst n.id)) := by
  unfold New.soqlWithTypeVariant
  et E hn
  exact E.calm _ _ ‹_› (by rw [kind_tryCByK (try_of_cByK (by assumption))]; decide) rfl

theorem soslWithType_t (E : Env root n .N rec) (hn : In root n) : P (New.soslWithType rec n) (Kid (pst n.id)) := by
  unfold New.soslWithType
  et E hn

theorem withDataCatExpression_t (E : Env root n .N rec) (hn : In root n) : P (New.withDataCatExpression rec n) (Kid (pst n.id)) := by
  unfold New.withDataCatExpression
  et E hn

theorem withDivisionExpression_t (E : Env root n .N rec) (hn : In root n) : P (New.withDivisionExpression rec n) (Kid (pst n.id)) := by
  unfold New.withDivisionExpression
  et E hn

theorem withSnippetExpression_t (E : Env root n .N rec) (hn : In root n) : P (New.withSnippetExpression rec n) (Kid (pst n.id)) := by
  unfold New.withSnippetExpression
  et E hn

end Afmt.Ends
