import Verif.Ast.Knot
import Verif.Gap.Tac

/-!
# Blanks in the programs of the constructors: by the tactic
-/

set_option linter.unusedVariables false
set_option linter.unusedSimpArgs false

namespace Afmt.Gap
open Afmt.Prog
open Afmt.Lines (P P_bind P_ok P_pure P_err P_any P_mono P_get P_of P_guard InL InO InL_vec InL_named InL_try InL_filter InL_drop InL_tail InL_head InL_last InO_K InO_N InO_first mapR_ne fullKinds callable)
set_option maxRecDepth 4000
variable [Mode] {root : Node} {rec : Rec} {n : Loc} {cfg : Cfg}

theorem interfaceBody_t (E : Env root rec) (hn : In root n) : P (New.interfaceBody cfg rec n) (Kid .E) := by
  unfold New.interfaceBody
  wt E hn

theorem interfaceMember_t (E : Env root rec) (hn : In root n) : P (New.interfaceMember rec n) (Kid .E) := by
  unfold New.interfaceMember
  wt E hn

theorem constantDeclaration_t (E : Env root rec) (hn : In root n) : P (New.constantDeclaration rec n) (Kid .E) := by
  unfold New.constantDeclaration
  wt E hn

theorem accessorList_t (E : Env root rec) (hn : In root n) : P (New.accessorList rec n) (Kid .E) := by
  unfold New.accessorList
  wt E hn

theorem accessorDeclaration_t (E : Env root rec) (hn : In root n) : P (New.accessorDeclaration rec n) (Kid .E) := by
  unfold New.accessorDeclaration
  wt E hn

theorem castExpression_t (E : Env root rec) (hn : In root n) : P (New.castExpression rec n) (Kid .E) := by
  unfold New.castExpression
  wt E hn

theorem throwStatement_t (E : Env root rec) (hn : In root n) : P (New.throwStatement rec n) (Kid .E) := by
  unfold New.throwStatement
  wt E hn

theorem switchExpression_t (E : Env root rec) (hn : In root n) : P (New.switchExpression rec n) (Kid .E) := by
  unfold New.switchExpression
  wt E hn

theorem switchBlock_t (E : Env root rec) (hn : In root n) : P (New.switchBlock rec n) (Kid .E) := by
  unfold New.switchBlock
  wt E hn

theorem switchRule_t (E : Env root rec) (hn : In root n) : P (New.switchRule rec n) (Kid .E) := by
  unfold New.switchRule
  wt E hn

theorem switchLabel_t (E : Env root rec) (hn : In root n) : P (New.switchLabel rec n) (Kid .E) := by
  unfold New.switchLabel
  wt E hn

theorem instanceOfExpression_t (E : Env root rec) (hn : In root n) : P (New.instanceOfExpression rec n) (Kid .E) := by
  unfold New.instanceOfExpression
  wt E hn

theorem javaFieldAccess_t (E : Env root rec) (hn : In root n) : P (New.javaFieldAccess rec n) (Kid .E) := by
  unfold New.javaFieldAccess
  wt E hn

theorem javaType_t (E : Env root rec) (hn : In root n) : P (New.javaType rec n) (Kid .E) := by
  unfold New.javaType
  wt E hn

theorem arrayType_t (E : Env root rec) (hn : In root n) : P (New.arrayType rec n) (Kid .E) := by
  unfold New.arrayType
  wt E hn

theorem triggerDeclaration_t (E : Env root rec) (hn : In root n) : P (New.triggerDeclaration rec n) (Kid .E) := by
  unfold New.triggerDeclaration
  wt E hn

theorem triggerEvent_t (E : Env root rec) (hn : In root n) : P (New.triggerEvent rec n) (Kid .E) := by
  unfold New.triggerEvent
  wt E hn

theorem triggerBody_t (E : Env root rec) (hn : In root n) : P (New.triggerBody rec n) (Kid .E) := by
  unfold New.triggerBody
  wt E hn

theorem queryExpression_t (E : Env root rec) (hn : In root n) : P (New.queryExpression rec n) (Kid .E) := by
  unfold New.queryExpression
  wt E hn

theorem soslQueryBody_t (E : Env root rec) (hn : In root n) : P (New.soslQueryBody rec n) (Kid .E) := by
  unfold New.soslQueryBody
  wt E hn

theorem findClause_t (E : Env root rec) (hn : In root n) : P (New.findClause rec n) (Kid .E) := by
  unfold New.findClause
  refine P_bind (Env.check E) (fun _ _ hk => ?_)
  split
  · wt E hn
  · refine P_bind (Q := Quotable) (P_of fun s hs => ?_) (fun v _ hv => ?_)
    · unfold Loc.cvalueByK at hs
      split at hs
      · rename_i c hc; cases hs; exact E.term c (in_tryCByK hn hc) (kind_tryCByK hc)
      · cases hs
    · have := Wordy_quote hv
      wt E hn

theorem inClause_t (E : Env root rec) (hn : In root n) : P (New.inClause rec n) (Kid .E) := by
  unfold New.inClause
  wt E hn

theorem returningClause_t (E : Env root rec) (hn : In root n) : P (New.returningClause rec n) (Kid .E) := by
  unfold New.returningClause
  wt E hn

theorem soqlQueryBody_t (E : Env root rec) (hn : In root n) : P (New.soqlQueryBody rec n) (Kid .E) := by
  unfold New.soqlQueryBody
  wt E hn

theorem fromClause_t (E : Env root rec) (hn : In root n) : P (New.fromClause rec n) (Kid .E) := by
  unfold New.fromClause
  wt E hn

theorem storageAlias_t (E : Env root rec) (hn : In root n) : P (New.storageAlias rec n) (Kid .E) := by
  unfold New.storageAlias
  wt E hn

theorem limitClause_t (E : Env root rec) (hn : In root n) : P (New.limitClause rec n) (Kid .E) := by
  unfold New.limitClause
  wt E hn

theorem updateClause_t (E : Env root rec) (hn : In root n) : P (New.updateClause rec n) (Kid .E) := by
  unfold New.updateClause
  wt E hn

theorem boundApexExpression_t (E : Env root rec) (hn : In root n) : P (New.boundApexExpression rec n) (Kid .E) := by
  unfold New.boundApexExpression
  wt E hn

theorem soslUsingClause_t (E : Env root rec) (hn : In root n) : P (New.soslUsingClause rec n) (Kid .E) := by
  unfold New.soslUsingClause
  wt E hn

theorem usingSearch_t (E : Env root rec) (hn : In root n) : P (New.usingSearch n) (Kid .E) := by
  unfold New.usingSearch
  wt E hn

theorem usingClause_t (E : Env root rec) (hn : In root n) : P (New.usingClause rec n) (Kid .E) := by
  unfold New.usingClause
  wt E hn

theorem usingClauseOption_t (E : Env root rec) (hn : In root n) : P (New.usingClauseOption rec n) (Kid .E) := by
  unfold New.usingClauseOption
  wt E hn

theorem usingScopeClause_t (E : Env root rec) (hn : In root n) : P (New.usingScopeClause rec n) (Kid .E) := by
  unfold New.usingScopeClause
  wt E hn

theorem usingListviewClause_t (E : Env root rec) (hn : In root n) : P (New.usingListviewClause rec n) (Kid .E) := by
  unfold New.usingListviewClause
  wt E hn

theorem usingLookupBindExpression_t (E : Env root rec) (hn : In root n) : P (New.usingLookupBindExpression rec n) (Kid .E) := by
  unfold New.usingLookupBindExpression
  wt E hn

theorem whereClause_t (E : Env root rec) (hn : In root n) : P (New.whereClause rec n) (Kid .E) := by
  unfold New.whereClause
  wt E hn

theorem comparisonExpression_t (E : Env root rec) (hn : In root n) : P (New.comparisonExpression rec n) (Kid .E) := by
  unfold New.comparisonExpression
  wt E hn

theorem comparableList_t (E : Env root rec) (hn : In root n) : P (New.comparableList rec n) (Kid .E) := by
  unfold New.comparableList
  wt E hn

theorem orderByClause_t (E : Env root rec) (hn : In root n) : P (New.orderByClause rec n) (Kid .E) := by
  unfold New.orderByClause
  wt E hn

theorem orderExpression_t (E : Env root rec) (hn : In root n) : P (New.orderExpression rec n) (Kid .E) := by
  unfold New.orderExpression
  wt E hn

theorem subQuery_t (E : Env root rec) (hn : In root n) : P (New.subQuery rec n) (Kid .E) := by
  unfold New.subQuery
  wt E hn

theorem mapCreationExpression_t (E : Env root rec) (hn : In root n) : P (New.mapCreationExpression rec n) (Kid .E) := by
  unfold New.mapCreationExpression
  wt E hn

theorem mapInitializer_t (E : Env root rec) (hn : In root n) : P (New.mapInitializer rec n) (Kid .E) := by
  unfold New.mapInitializer
  wt E hn

theorem havingClause_t (E : Env root rec) (hn : In root n) : P (New.havingClause rec n) (Kid .E) := by
  unfold New.havingClause
  wt E hn

theorem soslWithClause_t (E : Env root rec) (hn : In root n) : P (New.soslWithClause rec n) (Kid .E) := by
  unfold New.soslWithClause
  wt E hn

theorem soqlWithClause_t (E : Env root rec) (hn : In root n) : P (New.soqlWithClause rec n) (Kid .E) := by
  unfold New.soqlWithClause
  wt E hn

theorem soqlWithTypeVariant_t (E : Env root rec) (hn : In root n) (hw : Wordy n.value) : P (New.soqlWithTypeVariant rec n) (Kid .E) := by
  unfold New.soqlWithTypeVariant
  wt E hn

theorem soslWithType_t (E : Env root rec) (hn : In root n) : P (New.soslWithType rec n) (Kid .E) := by
  unfold New.soslWithType
  wt E hn

theorem withDataCatExpression_t (E : Env root rec) (hn : In root n) : P (New.withDataCatExpression rec n) (Kid .E) := by
  unfold New.withDataCatExpression
  wt E hn

theorem withDivisionExpression_t (E : Env root rec) (hn : In root n) : P (New.withDivisionExpression rec n) (Kid .E) := by
  unfold New.withDivisionExpression
  wt E hn

theorem withSnippetExpression_t (E : Env root rec) (hn : In root n) : P (New.withSnippetExpression rec n) (Kid .E) := by
  unfold New.withSnippetExpression
  wt E hn

end Afmt.Gap
