import Verif.Ast.Knot
import Verif.Notes.Tac

/-!
# Line breaks of the programs of the constructors: by the tactic
-/

set_option linter.unusedVariables false
set_option linter.unusedSectionVars false
set_option linter.unusedSimpArgs false

namespace Afmt.Notes
open Afmt.Prog
open Afmt.Lines (P P_bind P_ok P_pure P_err P_any P_mono Tidy InL InO fullKinds TidyTree InL_vec InL_named InL_try InL_filter InL_drop InL_tail InL_head InL_last InO_K InO_N InO_first mapR_ne Tidy_lower Tidy_upper Tidy_quote Tidy_colon P_get P_of P_guard)
set_option maxRecDepth 4000
variable [K : Src] {root : Node} {rec : Rec} {n : Loc} {x : St} {cfg : Cfg}

theorem withNetworkExpression_t (E : Env root n .I rec) (hn : In root n) (hq : Quiet n.id) : P (New.withNetworkExpression rec n) (Kid (pst n.id)) := by
  unfold New.withNetworkExpression
  ntt E hn
  all_goals (rw [pst_quiet hq] at *; repeat' nts)

theorem withMetadataExpression_t (E : Env root n .I rec) (hn : In root n) : P (New.withMetadataExpression rec n) (Kid (pst n.id)) := by
  unfold New.withMetadataExpression
  ntt E hn

theorem withSpellCorrectionExpression_t (E : Env root n .I rec) (hn : In root n) : P (New.withSpellCorrectionExpression rec n) (Kid (pst n.id)) := by
  unfold New.withSpellCorrectionExpression
  ntt E hn

theorem withPriceBookExpression_t (E : Env root n .I rec) (hn : In root n) : P (New.withPriceBookExpression rec n) (Kid (pst n.id)) := by
  unfold New.withPriceBookExpression
  ntt E hn

theorem dottedIdentifier_t (E : Env root n .I rec) (hn : In root n) : P (New.dottedIdentifier rec n) (Kid (pst n.id)) := by
  unfold New.dottedIdentifier
  ntt E hn

theorem valueNode_t (E : Env root n .I rec) (hn : In root n) : P (New.valueNode n) (Kid (pst n.id)) := by
  unfold New.valueNode
  ntt E hn

theorem valueNodeLowerCase_t (E : Env root n .I rec) (hn : In root n) : P (New.valueNodeLowerCase n) (Kid (pst n.id)) := by
  unfold New.valueNodeLowerCase
  ntt E hn

theorem valueNodeUpperCase_t (E : Env root n .I rec) (hn : In root n) : P (New.valueNodeUpperCase n) (Kid (pst n.id)) := by
  unfold New.valueNodeUpperCase
  ntt E hn

theorem expressionStatement_t (E : Env root n .I rec) (hn : In root n) : P (New.expressionStatement rec n) (Kid (pst n.id)) := by
  unfold New.expressionStatement
  ntt E hn

theorem safeNavigationOperator_t (E : Env root n .I rec) (hn : In root n) : P (New.safeNavigationOperator n) (Kid (pst n.id)) := by
  unfold New.safeNavigationOperator
  ntt E hn

theorem countExpression_t (E : Env root n .I rec) (hn : In root n) : P (New.countExpression rec n) (Kid (pst n.id)) := by
  unfold New.countExpression
  ntt E hn

theorem functionExpression_t (E : Env root n .I rec) (hn : In root n) : P (New.wrapper rec "function_expression" .functionExpressionVariant n) (Kid (pst n.id)) := by
  unfold New.wrapper
  ntt E hn

theorem fieldIdentifier_t (E : Env root n .I rec) (hn : In root n) : P (New.wrapper rec "field_identifier" .fieldIdentifierVariant n) (Kid (pst n.id)) := by
  unfold New.wrapper
  ntt E hn

theorem geoLocationType_t (E : Env root n .I rec) (hn : In root n) : P (New.wrapper rec "geo_location_type" .geoLocationTypeVariant n) (Kid (pst n.id)) := by
  unfold New.wrapper
  ntt E hn

theorem selectClause_t (E : Env root n .I rec) (hn : In root n) : P (New.wrapper rec "select_clause" .selectClauseVariant n) (Kid (pst n.id)) := by
  unfold New.wrapper
  ntt E hn

theorem storageIdentifier_t (E : Env root n .I rec) (hn : In root n) : P (New.wrapper rec "storage_identifier" .storageIdentifierVariant n) (Kid (pst n.id)) := by
  unfold New.wrapper
  ntt E hn

theorem soqlWithType_t (E : Env root n .I rec) (hn : In root n) : P (New.wrapper rec "with_type" .soqlWithTypeVariant n) (Kid (pst n.id)) := by
  unfold New.wrapper
  ntt E hn

theorem forClause_t (E : Env root n .I rec) (hn : In root n) : P (New.forClause rec n) (Kid (pst n.id)) := by
  unfold New.forClause
  ntt E hn

theorem allRowsClause_t (E : Env root n .I rec) (hn : In root n) : P (New.allRowsClause n) (Kid (pst n.id)) := by
  unfold New.allRowsClause
  ntt E hn

theorem updateExpression_t (E : Env root n .I rec) (hn : In root n) : P (New.wrapper rec "update_expression" .updateExpressionVariant n) (Kid (pst n.id)) := by
  unfold New.wrapper
  ntt E hn

theorem dmlExpression_t (E : Env root n .I rec) (hn : In root n) : P (New.wrapper rec "dml_expression" .dmlExpressionVariant n) (Kid (pst n.id)) := by
  unfold New.wrapper
  ntt E hn

theorem dmlType_t (E : Env root n .I rec) (hn : In root n) : P (New.dmlType rec n) (Kid (pst n.id)) := by
  unfold New.dmlType
  ntt E hn

theorem rootMember_t (E : Env root n x rec) (hn : In root n) : P (New.rootMember rec n) (Kid (pst n.id)) := by
  unfold New.rootMember
  ntt E hn

theorem classMember_t (E : Env root n x rec) (hn : In root n) : P (New.classMember rec n) (Kid (pst n.id)) := by
  unfold New.classMember
  ntt E hn

theorem unannotatedType_t (E : Env root n .I rec) (hn : In root n) : P (New.unannotatedType rec n) (Kid (pst n.id)) := by
  unfold New.unannotatedType
  ntt E hn

theorem simpleType_t (E : Env root n .I rec) (hn : In root n) : P (New.simpleType rec n) (Kid (pst n.id)) := by
  unfold New.simpleType
  ntt E hn

theorem variableInitializer_t (E : Env root n .I rec) (hn : In root n) : P (New.variableInitializer rec n) (Kid (pst n.id)) := by
  unfold New.variableInitializer
  ntt E hn

theorem expression_t (E : Env root n .I rec) (hn : In root n) : P (New.expression rec n) (Kid (pst n.id)) := by
  unfold New.expression
  ntt E hn

theorem primaryExpression_t (E : Env root n .I rec) (hn : In root n) : P (New.primaryExpression rec n) (Kid (pst n.id)) := by
  unfold New.primaryExpression
  ntt E hn

theorem classLiteral_t (E : Env root n .I rec) (hn : In root n) : P (New.classLiteral rec n) (Kid (pst n.id)) := by
  unfold New.classLiteral
  ntt E hn

theorem literal_t (E : Env root n .I rec) (hn : In root n) : P (New.literal rec n) (Kid (pst n.id)) := by
  unfold New.literal
  ntt E hn

theorem modifierKind_t (E : Env root n .I rec) (hn : In root n) : P (New.modifierKind n) (Kid (pst n.id)) := by
  unfold New.modifierKind
  ntt E hn

theorem statement_t (E : Env root n x rec) (hn : In root n) : P (New.statement rec n) (Kid (pst n.id)) := by
  unfold New.statement
  ntt E hn

theorem type_t (E : Env root n .I rec) (hn : In root n) : P (New.type rec n) (Kid (pst n.id)) := by
  unfold New.type
  ntt E hn

theorem triggerEventVariant_t (E : Env root n .I rec) (hn : In root n) : P (New.triggerEventVariant n) (Kid (pst n.id)) := by
  unfold New.triggerEventVariant
  ntt E hn

theorem selectClauseVariant_t (E : Env root n .I rec) (hn : In root n) : P (New.selectClauseVariant rec n) (Kid (pst n.id)) := by
  unfold New.selectClauseVariant
  ntt E hn

theorem selectableExpression_t (E : Env root n .I rec) (hn : In root n) : P (New.selectableExpression rec n) (Kid (pst n.id)) := by
  unfold New.selectableExpression
  ntt E hn

theorem fieldsExpression_t (E : Env root n .I rec) (hn : In root n) : P (New.fieldsExpression rec n) (Kid (pst n.id)) := by
  unfold New.fieldsExpression
  ntt E hn

theorem aliasExpression_t (E : Env root n .I rec) (hn : In root n) : P (New.aliasExpression rec n) (Kid (pst n.id)) := by
  unfold New.aliasExpression
  ntt E hn

theorem fieldIdentifierVariant_t (E : Env root n .I rec) (hn : In root n) : P (New.fieldIdentifierVariant rec n) (Kid (pst n.id)) := by
  unfold New.fieldIdentifierVariant
  ntt E hn

theorem storageVariant_t (E : Env root n .I rec) (hn : In root n) : P (New.storageVariant rec n) (Kid (pst n.id)) := by
  unfold New.storageVariant
  ntt E hn

theorem storageIdentifierVariant_t (E : Env root n .I rec) (hn : In root n) : P (New.storageIdentifierVariant rec n) (Kid (pst n.id)) := by
  unfold New.storageIdentifierVariant
  refine P_bind (Env.check E) (fun _ _ _ => ?_)
  refine P_bind (Env.firstC E hn) (fun c hc' hc => ?_)
  split
  · ntt E hn
  split
  · refine P_bind (Env.csByK E hc) (fun xs hxs hx => ?_)
    obtain ⟨hx, hne⟩ := hx
    have h : P (mapR (rec .valueNode) xs) (Kids .I) := P_map (fun x h => E.calm _ x (InL_mem hx h)
      (by rw [kind_tryCsByK (try_of_csByK hxs ▸ h)]; decide) rfl)
    refine P_bind h (fun _ _ _ => ?_)
    ntt E hn
  · exact P_err

theorem limitValue_t (E : Env root n .I rec) (hn : In root n) : P (New.limitValue rec n) (Kid (pst n.id)) := by
  unfold New.limitValue
  ntt E hn

theorem booleanExpression_t (E : Env root n .I rec) (hn : In root n) : P (New.booleanExpression rec n) (Kid (pst n.id)) := by
  unfold New.booleanExpression
  ntt E hn

theorem valueExpression_t (E : Env root n .I rec) (hn : In root n) : P (New.valueExpression rec n) (Kid (pst n.id)) := by
  unfold New.valueExpression
  ntt E hn

theorem comparison_t (E : Env root n x rec) (hn : In root n) : P (New.comparison rec n) (Kid (pst n.id)) := by
  unfold New.comparison
  ntt E hn

theorem soqlLiteral_t (E : Env root n .I rec) (hn : In root n) : P (New.soqlLiteral rec n) (Kid (pst n.id)) := by
  unfold New.soqlLiteral
  ntt E hn

theorem dateLiteralWithParam_t (E : Env root n .I rec) (hn : In root n) : P (New.dateLiteralWithParam n) (Kid (pst n.id)) := by
  unfold New.dateLiteralWithParam
  ntt E hn

theorem setValue_t (E : Env root n .I rec) (hn : In root n) : P (New.setValue rec n) (Kid (pst n.id)) := by
  unfold New.setValue
  ntt E hn

theorem comparableListValue_t (E : Env root n .I rec) (hn : In root n) : P (New.comparableListValue rec n) (Kid (pst n.id)) := by
  unfold New.comparableListValue
  ntt E hn

theorem offsetClause_t (E : Env root n .I rec) (hn : In root n) : P (New.offsetClause rec n) (Kid (pst n.id)) := by
  unfold New.offsetClause
  ntt E hn

theorem functionExpressionVariant_t (E : Env root n .I rec) (hn : In root n) : P (New.functionExpressionVariant rec n) (Kid (pst n.id)) := by
  unfold New.functionExpressionVariant
  ntt E hn

end Afmt.Notes
