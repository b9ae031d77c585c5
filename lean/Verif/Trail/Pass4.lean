import Verif.Ast.Knot
import Verif.Trail.Tac

/-!
# Ends of lines in the programs of the constructors: by the tactic
-/

set_option linter.unusedVariables false
set_option linter.unusedSimpArgs false

namespace Afmt.Trail
open Afmt.Prog
open Afmt.Lines (syms symss symss_append P P_bind P_ok P_pure P_err P_any P_mono P_get P_of P_guard InL InO InL_vec InL_named InL_try InL_filter InL_drop InL_tail InL_head InL_last InO_K InO_N InO_first mapR_ne fullKinds callable)
set_option maxRecDepth 4000
variable [Gate] {root : Node} {rec : Rec} {n : Loc} {cfg : Cfg}

theorem withNetworkExpression_t (E : Env root rec) (hn : In root n) : P (New.withNetworkExpression rec n) (Kid .N) := by
  unfold New.withNetworkExpression
  wt E hn

theorem withMetadataExpression_t (E : Env root rec) (hn : In root n) : P (New.withMetadataExpression rec n) (Kid .N) := by
  unfold New.withMetadataExpression
  wt E hn

theorem withSpellCorrectionExpression_t (E : Env root rec) (hn : In root n) : P (New.withSpellCorrectionExpression rec n) (Kid .N) := by
  unfold New.withSpellCorrectionExpression
  wt E hn

theorem withPriceBookExpression_t (E : Env root rec) (hn : In root n) : P (New.withPriceBookExpression rec n) (Kid .N) := by
  unfold New.withPriceBookExpression
  wt E hn

theorem dottedIdentifier_t (E : Env root rec) (hn : In root n) : P (New.dottedIdentifier rec n) (Kid .N) := by
  unfold New.dottedIdentifier
  wt E hn

theorem valueNode_t (E : Env root rec) (hn : In root n) : P (New.valueNode n) (Kid .N) := by
  unfold New.valueNode
  wt E hn

theorem valueNodeLowerCase_t (E : Env root rec) (hn : In root n) : P (New.valueNodeLowerCase n) (Kid .N) := by
  unfold New.valueNodeLowerCase
  wt E hn

theorem valueNodeUpperCase_t (E : Env root rec) (hn : In root n) : P (New.valueNodeUpperCase n) (Kid .N) := by
  unfold New.valueNodeUpperCase
  wt E hn

theorem expressionStatement_t (E : Env root rec) (hn : In root n) : P (New.expressionStatement rec n) (Kid .N) := by
  unfold New.expressionStatement
  wt E hn

theorem safeNavigationOperator_t (E : Env root rec) (hn : In root n) : P (New.safeNavigationOperator n) (Kid .N) := by
  unfold New.safeNavigationOperator
  wt E hn

theorem countExpression_t (E : Env root rec) (hn : In root n) : P (New.countExpression rec n) (Kid .N) := by
  unfold New.countExpression
  wt E hn

theorem functionExpression_t (E : Env root rec) (hn : In root n) : P (New.wrapper rec "function_expression" .functionExpressionVariant n) (Kid .N) := by
  unfold New.wrapper
  wt E hn

theorem fieldIdentifier_t (E : Env root rec) (hn : In root n) : P (New.wrapper rec "field_identifier" .fieldIdentifierVariant n) (Kid .N) := by
  unfold New.wrapper
  wt E hn

theorem geoLocationType_t (E : Env root rec) (hn : In root n) : P (New.wrapper rec "geo_location_type" .geoLocationTypeVariant n) (Kid .N) := by
  unfold New.wrapper
  wt E hn

theorem selectClause_t (E : Env root rec) (hn : In root n) : P (New.wrapper rec "select_clause" .selectClauseVariant n) (Kid .N) := by
  unfold New.wrapper
  wt E hn

theorem storageIdentifier_t (E : Env root rec) (hn : In root n) : P (New.wrapper rec "storage_identifier" .storageIdentifierVariant n) (Kid .N) := by
  unfold New.wrapper
  wt E hn

theorem soqlWithType_t (E : Env root rec) (hn : In root n) : P (New.wrapper rec "with_type" .soqlWithTypeVariant n) (Kid .N) := by
  unfold New.wrapper
  wt E hn

theorem forClause_t (E : Env root rec) (hn : In root n) : P (New.forClause rec n) (Kid .N) := by
  unfold New.forClause
  wt E hn

theorem allRowsClause_t (E : Env root rec) (hn : In root n) : P (New.allRowsClause n) (Kid .N) := by
  unfold New.allRowsClause
  wt E hn

theorem updateExpression_t (E : Env root rec) (hn : In root n) : P (New.wrapper rec "update_expression" .updateExpressionVariant n) (Kid .N) := by
  unfold New.wrapper
  wt E hn

theorem dmlExpression_t (E : Env root rec) (hn : In root n) : P (New.wrapper rec "dml_expression" .dmlExpressionVariant n) (Kid .N) := by
  unfold New.wrapper
  wt E hn

theorem dmlType_t (E : Env root rec) (hn : In root n) : P (New.dmlType rec n) (Kid .N) := by
  unfold New.dmlType
  wt E hn

theorem rootMember_t (E : Env root rec) (hn : In root n) : P (New.rootMember rec n) (Kid .N) := by
  unfold New.rootMember
  wt E hn

theorem classMember_t (E : Env root rec) (hn : In root n) : P (New.classMember rec n) (Kid .N) := by
  unfold New.classMember
  wt E hn

theorem unannotatedType_t (E : Env root rec) (hn : In root n) : P (New.unannotatedType rec n) (Kid .N) := by
  unfold New.unannotatedType
  wt E hn

theorem simpleType_t (E : Env root rec) (hn : In root n) : P (New.simpleType rec n) (Kid .N) := by
  unfold New.simpleType
  wt E hn

theorem variableInitializer_t (E : Env root rec) (hn : In root n) : P (New.variableInitializer rec n) (Kid .N) := by
  unfold New.variableInitializer
  wt E hn

theorem expression_t (E : Env root rec) (hn : In root n) : P (New.expression rec n) (Kid .N) := by
  unfold New.expression
  wt E hn

theorem primaryExpression_t (E : Env root rec) (hn : In root n) : P (New.primaryExpression rec n) (Kid .N) := by
  unfold New.primaryExpression
  wt E hn

theorem classLiteral_t (E : Env root rec) (hn : In root n) : P (New.classLiteral rec n) (Kid .N) := by
  unfold New.classLiteral
  wt E hn

theorem literal_t (E : Env root rec) (hn : In root n) : P (New.literal rec n) (Kid .N) := by
  unfold New.literal
  wt E hn

theorem modifierKind_t (E : Env root rec) (hn : In root n) : P (New.modifierKind n) (Kid .N) := by
  unfold New.modifierKind
  wt E hn

theorem statement_t (E : Env root rec) (hn : In root n) : P (New.statement rec n) (Kid .N) := by
  unfold New.statement
  wt E hn

theorem type_t (E : Env root rec) (hn : In root n) : P (New.type rec n) (Kid .N) := by
  unfold New.type
  wt E hn

theorem triggerEventVariant_t (E : Env root rec) (hn : In root n) : P (New.triggerEventVariant n) (Kid .N) := by
  unfold New.triggerEventVariant
  wt E hn

theorem selectClauseVariant_t (E : Env root rec) (hn : In root n) : P (New.selectClauseVariant rec n) (Kid .N) := by
  unfold New.selectClauseVariant
  wt E hn

theorem selectableExpression_t (E : Env root rec) (hn : In root n) : P (New.selectableExpression rec n) (Kid .N) := by
  unfold New.selectableExpression
  wt E hn

theorem fieldsExpression_t (E : Env root rec) (hn : In root n) : P (New.fieldsExpression rec n) (Kid .N) := by
  unfold New.fieldsExpression
  wt E hn

theorem aliasExpression_t (E : Env root rec) (hn : In root n) : P (New.aliasExpression rec n) (Kid .N) := by
  unfold New.aliasExpression
  wt E hn

theorem fieldIdentifierVariant_t (E : Env root rec) (hn : In root n) : P (New.fieldIdentifierVariant rec n) (Kid .N) := by
  unfold New.fieldIdentifierVariant
  wt E hn

theorem storageVariant_t (E : Env root rec) (hn : In root n) : P (New.storageVariant rec n) (Kid .N) := by
  unfold New.storageVariant
  wt E hn

theorem storageIdentifierVariant_t (E : Env root rec) (hn : In root n) : P (New.storageIdentifierVariant rec n) (Kid .N) := by
  unfold New.storageIdentifierVariant
  wt E hn

theorem limitValue_t (E : Env root rec) (hn : In root n) : P (New.limitValue rec n) (Kid .N) := by
  unfold New.limitValue
  wt E hn

theorem booleanExpression_t (E : Env root rec) (hn : In root n) : P (New.booleanExpression rec n) (Kid .N) := by
  unfold New.booleanExpression
  wt E hn

theorem valueExpression_t (E : Env root rec) (hn : In root n) : P (New.valueExpression rec n) (Kid .N) := by
  unfold New.valueExpression
  wt E hn

theorem comparison_t (E : Env root rec) (hn : In root n) : P (New.comparison rec n) Led := by
  unfold New.comparison
  wt E hn

theorem soqlLiteral_t (E : Env root rec) (hn : In root n) : P (New.soqlLiteral rec n) (Kid .N) := by
  unfold New.soqlLiteral
  wt E hn

theorem dateLiteralWithParam_t (E : Env root rec) (hn : In root n) : P (New.dateLiteralWithParam n) (Kid .N) := by
  unfold New.dateLiteralWithParam
  wt E hn

theorem setValue_t (E : Env root rec) (hn : In root n) : P (New.setValue rec n) (Kid .N) := by
  unfold New.setValue
  wt E hn

theorem comparableListValue_t (E : Env root rec) (hn : In root n) : P (New.comparableListValue rec n) (Kid .N) := by
  unfold New.comparableListValue
  wt E hn

theorem offsetClause_t (E : Env root rec) (hn : In root n) : P (New.offsetClause rec n) (Kid .N) := by
  unfold New.offsetClause
  wt E hn

theorem functionExpressionVariant_t (E : Env root rec) (hn : In root n) : P (New.functionExpressionVariant rec n) (Kid .N) := by
  unfold New.functionExpressionVariant
  wt E hn

end Afmt.Trail
