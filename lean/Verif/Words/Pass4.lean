import Verif.Ast.Knot
import Verif.Words.Tac

/-!
# Word boundaries of the programs of the constructors: by the tactic
-/

set_option linter.unusedVariables false
set_option linter.unusedSimpArgs false

namespace Afmt.Words
open Afmt.Prog
open Afmt.Lines (P P_bind P_ok P_err P_any P_mono P_get InL_vec InL_named InL_try InL_filter InL_drop InL_tail InL_head InL_last InO_K InO_N)
set_option maxRecDepth 4000
variable {root : Node} {rec : Rec} {n : Loc} {cfg : Cfg}

theorem withNetworkExpression_t (E : Env root rec) (hn : In root n) : P (New.withNetworkExpression rec n) (Kid .S .U) := by
  unfold New.withNetworkExpression
  wtt E hn

theorem withMetadataExpression_t (E : Env root rec) (hn : In root n) : P (New.withMetadataExpression rec n) (Kid .S .U) := by
  unfold New.withMetadataExpression
  wtt E hn

theorem withSpellCorrectionExpression_t (E : Env root rec) (hn : In root n) : P (New.withSpellCorrectionExpression rec n) (Kid .S .U) := by
  unfold New.withSpellCorrectionExpression
  wtt E hn

theorem withPriceBookExpression_t (E : Env root rec) (hn : In root n) : P (New.withPriceBookExpression rec n) (Kid .S .U) := by
  unfold New.withPriceBookExpression
  wtt E hn

theorem dottedIdentifier_t (E : Env root rec) (hn : In root n) : P (New.dottedIdentifier rec n) (Kid .S .U) := by
  unfold New.dottedIdentifier
  wtt E hn

theorem valueNode_t (E : Env root rec) (hn : In root n) : P (New.valueNode n) (Kid .S .U) := by
  unfold New.valueNode
  wtt E hn

theorem valueNodeLowerCase_t (E : Env root rec) (hn : In root n) : P (New.valueNodeLowerCase n) (Kid .S .U) := by
  unfold New.valueNodeLowerCase
  wtt E hn

theorem valueNodeUpperCase_t (E : Env root rec) (hn : In root n) : P (New.valueNodeUpperCase n) (Kid .S .U) := by
  unfold New.valueNodeUpperCase
  wtt E hn

theorem expressionStatement_t (E : Env root rec) (hn : In root n) : P (New.expressionStatement rec n) (Kid .S .U) := by
  unfold New.expressionStatement
  wtt E hn

theorem safeNavigationOperator_t (E : Env root rec) (hn : In root n) : P (New.safeNavigationOperator n) (Kid .U .S) := by
  unfold New.safeNavigationOperator
  wtt E hn

theorem countExpression_t (E : Env root rec) (hn : In root n) : P (New.countExpression rec n) (Kid .S .U) := by
  unfold New.countExpression
  wtt E hn

theorem functionExpression_t (E : Env root rec) (hn : In root n) : P (New.wrapper rec "function_expression" .functionExpressionVariant n) (Kid .S .U) := by
  unfold New.wrapper
  wtt E hn

theorem fieldIdentifier_t (E : Env root rec) (hn : In root n) : P (New.wrapper rec "field_identifier" .fieldIdentifierVariant n) (Kid .S .U) := by
  unfold New.wrapper
  wtt E hn

theorem geoLocationType_t (E : Env root rec) (hn : In root n) : P (New.wrapper rec "geo_location_type" .geoLocationTypeVariant n) (Kid .S .U) := by
  unfold New.wrapper
  wtt E hn

theorem selectClause_t (E : Env root rec) (hn : In root n) : P (New.wrapper rec "select_clause" .selectClauseVariant n) (Kid .S .U) := by
  unfold New.wrapper
  wtt E hn

theorem storageIdentifier_t (E : Env root rec) (hn : In root n) : P (New.wrapper rec "storage_identifier" .storageIdentifierVariant n) (Kid .S .U) := by
  unfold New.wrapper
  wtt E hn

theorem soqlWithType_t (E : Env root rec) (hn : In root n) : P (New.wrapper rec "with_type" .soqlWithTypeVariant n) (Kid .S .U) := by
  unfold New.wrapper
  wtt E hn

theorem forClause_t (E : Env root rec) (hn : In root n) : P (New.forClause rec n) (Kid .S .U) := by
  unfold New.forClause
  wtt E hn

theorem allRowsClause_t (E : Env root rec) (hn : In root n) : P (New.allRowsClause n) (Kid .S .U) := by
  unfold New.allRowsClause
  wtt E hn

theorem updateExpression_t (E : Env root rec) (hn : In root n) : P (New.wrapper rec "update_expression" .updateExpressionVariant n) (Kid .S .U) := by
  unfold New.wrapper
  wtt E hn

theorem dmlExpression_t (E : Env root rec) (hn : In root n) : P (New.wrapper rec "dml_expression" .dmlExpressionVariant n) (Kid .S .U) := by
  unfold New.wrapper
  wtt E hn

theorem dmlType_t (E : Env root rec) (hn : In root n) : P (New.dmlType rec n) (Kid .S .U) := by
  unfold New.dmlType
  wtt E hn

theorem rootMember_t (E : Env root rec) (hn : In root n) : P (New.rootMember rec n) (Kid .S .U) := by
  unfold New.rootMember
  wtt E hn

theorem classMember_t (E : Env root rec) (hn : In root n) : P (New.classMember rec n) (Kid .S .U) := by
  unfold New.classMember
  wtt E hn

theorem unannotatedType_t (E : Env root rec) (hn : In root n) : P (New.unannotatedType rec n) (Kid .S .U) := by
  unfold New.unannotatedType
  wtt E hn

theorem simpleType_t (E : Env root rec) (hn : In root n) : P (New.simpleType rec n) (Kid .S .U) := by
  unfold New.simpleType
  wtt E hn

theorem variableInitializer_t (E : Env root rec) (hn : In root n) : P (New.variableInitializer rec n) (Kid .S .U) := by
  unfold New.variableInitializer
  wtt E hn

theorem expression_t (E : Env root rec) (hn : In root n) : P (New.expression rec n) (Kid .S .U) := by
  unfold New.expression
  wtt E hn

theorem primaryExpression_t (E : Env root rec) (hn : In root n) : P (New.primaryExpression rec n) (Kid .S .U) := by
  unfold New.primaryExpression
  wtt E hn

theorem classLiteral_t (E : Env root rec) (hn : In root n) : P (New.classLiteral rec n) (Kid .S .U) := by
  unfold New.classLiteral
  wtt E hn

theorem literal_t (E : Env root rec) (hn : In root n) : P (New.literal rec n) (Kid .S .U) := by
  unfold New.literal
  wtt E hn

theorem modifierKind_t (E : Env root rec) (hn : In root n) : P (New.modifierKind n) (Kid .S .U) := by
  unfold New.modifierKind
  wtt E hn

theorem statement_t (E : Env root rec) (hn : In root n) : P (New.statement rec n) (Kid .S .U) := by
  unfold New.statement
  wtt E hn

theorem type_t (E : Env root rec) (hn : In root n) : P (New.type rec n) (Kid .S .U) := by
  unfold New.type
  wtt E hn

theorem triggerEventVariant_t (E : Env root rec) (hn : In root n) : P (New.triggerEventVariant n) (Kid .S .U) := by
  unfold New.triggerEventVariant
  wtt E hn

theorem selectClauseVariant_t (E : Env root rec) (hn : In root n) : P (New.selectClauseVariant rec n) (Kid .S .U) := by
  unfold New.selectClauseVariant
  wtt E hn

theorem selectableExpression_t (E : Env root rec) (hn : In root n) : P (New.selectableExpression rec n) (Kid .S .U) := by
  unfold New.selectableExpression
  wtt E hn

theorem fieldsExpression_t (E : Env root rec) (hn : In root n) : P (New.fieldsExpression rec n) (Kid .S .U) := by
  unfold New.fieldsExpression
  wtt E hn

theorem aliasExpression_t (E : Env root rec) (hn : In root n) : P (New.aliasExpression rec n) (Kid .S .U) := by
  unfold New.aliasExpression
  wtt E hn

theorem fieldIdentifierVariant_t (E : Env root rec) (hn : In root n) : P (New.fieldIdentifierVariant rec n) (Kid .S .U) := by
  unfold New.fieldIdentifierVariant
  wtt E hn

theorem storageVariant_t (E : Env root rec) (hn : In root n) : P (New.storageVariant rec n) (Kid .S .U) := by
  unfold New.storageVariant
  wtt E hn

theorem storageIdentifierVariant_t (E : Env root rec) (hn : In root n) : P (New.storageIdentifierVariant rec n) (Kid .S .U) := by
  unfold New.storageIdentifierVariant
  wtt E hn

theorem limitValue_t (E : Env root rec) (hn : In root n) : P (New.limitValue rec n) (Kid .S .U) := by
  unfold New.limitValue
  wtt E hn

theorem booleanExpression_t (E : Env root rec) (hn : In root n) : P (New.booleanExpression rec n) (Kid .S .U) := by
  unfold New.booleanExpression
  wtt E hn

theorem valueExpression_t (E : Env root rec) (hn : In root n) : P (New.valueExpression rec n) (Kid .S .U) := by
  unfold New.valueExpression
  wtt E hn

theorem comparison_t (E : Env root rec) (hn : In root n) : P (New.comparison rec n) (Kid .U .U) := by
  unfold New.comparison
  wtt E hn

theorem soqlLiteral_t (E : Env root rec) (hn : In root n) : P (New.soqlLiteral rec n) (Kid .S .U) := by
  unfold New.soqlLiteral
  wtt E hn

theorem dateLiteralWithParam_t (E : Env root rec) (hn : In root n) : P (New.dateLiteralWithParam n) (Kid .S .U) := by
  unfold New.dateLiteralWithParam
  wtt E hn

theorem setValue_t (E : Env root rec) (hn : In root n) : P (New.setValue rec n) (Kid .S .U) := by
  unfold New.setValue
  wtt E hn

theorem comparableListValue_t (E : Env root rec) (hn : In root n) : P (New.comparableListValue rec n) (Kid .S .U) := by
  unfold New.comparableListValue
  wtt E hn

theorem offsetClause_t (E : Env root rec) (hn : In root n) : P (New.offsetClause rec n) (Kid .S .U) := by
  unfold New.offsetClause
  wtt E hn

theorem functionExpressionVariant_t (E : Env root rec) (hn : In root n) : P (New.functionExpressionVariant rec n) (Kid .S .U) := by
  unfold New.functionExpressionVariant
  wtt E hn

end Afmt.Words
