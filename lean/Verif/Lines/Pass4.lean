import Verif.Ast.Knot
import Verif.Lines.Tac

/-!
# Line breaks of the programs of the constructors: by the tactic
-/

set_option linter.unusedVariables false
set_option linter.unusedSimpArgs false

namespace Afmt.Lines
open Afmt.Prog
set_option maxRecDepth 4000
variable {root : Node} {rec : Rec} {n : Loc} {cfg : Cfg}

theorem withNetworkExpression_t (E : Env root rec) (hn : In root n) : P (New.withNetworkExpression rec n) (Kid .I) := by
  unfold New.withNetworkExpression
  tt E hn

theorem withMetadataExpression_t (E : Env root rec) (hn : In root n) : P (New.withMetadataExpression rec n) (Kid .I) := by
  unfold New.withMetadataExpression
  tt E hn

theorem withSpellCorrectionExpression_t (E : Env root rec) (hn : In root n) : P (New.withSpellCorrectionExpression rec n) (Kid .I) := by
  unfold New.withSpellCorrectionExpression
  tt E hn

theorem withPriceBookExpression_t (E : Env root rec) (hn : In root n) : P (New.withPriceBookExpression rec n) (Kid .I) := by
  unfold New.withPriceBookExpression
  tt E hn

theorem dottedIdentifier_t (E : Env root rec) (hn : In root n) : P (New.dottedIdentifier rec n) (Kid .I) := by
  unfold New.dottedIdentifier
  tt E hn

theorem valueNode_t (E : Env root rec) (hn : In root n) : P (New.valueNode n) (Kid .I) := by
  unfold New.valueNode
  tt E hn

theorem valueNodeLowerCase_t (E : Env root rec) (hn : In root n) : P (New.valueNodeLowerCase n) (Kid .I) := by
  unfold New.valueNodeLowerCase
  tt E hn

theorem valueNodeUpperCase_t (E : Env root rec) (hn : In root n) : P (New.valueNodeUpperCase n) (Kid .I) := by
  unfold New.valueNodeUpperCase
  tt E hn

theorem expressionStatement_t (E : Env root rec) (hn : In root n) : P (New.expressionStatement rec n) (Kid .I) := by
  unfold New.expressionStatement
  tt E hn

theorem safeNavigationOperator_t (E : Env root rec) (hn : In root n) : P (New.safeNavigationOperator n) (Kid .I) := by
  unfold New.safeNavigationOperator
  tt E hn

theorem countExpression_t (E : Env root rec) (hn : In root n) : P (New.countExpression rec n) (Kid .I) := by
  unfold New.countExpression
  tt E hn

theorem functionExpression_t (E : Env root rec) (hn : In root n) : P (New.wrapper rec "function_expression" .functionExpressionVariant n) (Kid .I) := by
  unfold New.wrapper
  tt E hn

theorem fieldIdentifier_t (E : Env root rec) (hn : In root n) : P (New.wrapper rec "field_identifier" .fieldIdentifierVariant n) (Kid .I) := by
  unfold New.wrapper
  tt E hn

theorem geoLocationType_t (E : Env root rec) (hn : In root n) : P (New.wrapper rec "geo_location_type" .geoLocationTypeVariant n) (Kid .I) := by
  unfold New.wrapper
  tt E hn

theorem selectClause_t (E : Env root rec) (hn : In root n) : P (New.wrapper rec "select_clause" .selectClauseVariant n) (Kid .I) := by
  unfold New.wrapper
  tt E hn

theorem storageIdentifier_t (E : Env root rec) (hn : In root n) : P (New.wrapper rec "storage_identifier" .storageIdentifierVariant n) (Kid .I) := by
  unfold New.wrapper
  tt E hn

theorem soqlWithType_t (E : Env root rec) (hn : In root n) : P (New.wrapper rec "with_type" .soqlWithTypeVariant n) (Kid .I) := by
  unfold New.wrapper
  tt E hn

theorem forClause_t (E : Env root rec) (hn : In root n) : P (New.forClause rec n) (Kid .I) := by
  unfold New.forClause
  tt E hn

theorem allRowsClause_t (E : Env root rec) (hn : In root n) : P (New.allRowsClause n) (Kid .I) := by
  unfold New.allRowsClause
  tt E hn

theorem updateExpression_t (E : Env root rec) (hn : In root n) : P (New.wrapper rec "update_expression" .updateExpressionVariant n) (Kid .I) := by
  unfold New.wrapper
  tt E hn

theorem dmlExpression_t (E : Env root rec) (hn : In root n) : P (New.wrapper rec "dml_expression" .dmlExpressionVariant n) (Kid .I) := by
  unfold New.wrapper
  tt E hn

theorem dmlType_t (E : Env root rec) (hn : In root n) : P (New.dmlType rec n) (Kid .I) := by
  unfold New.dmlType
  tt E hn

theorem rootMember_t (E : Env root rec) (hn : In root n) : P (New.rootMember rec n) (Kid .I) := by
  unfold New.rootMember
  tt E hn

theorem classMember_t (E : Env root rec) (hn : In root n) : P (New.classMember rec n) (Kid .I) := by
  unfold New.classMember
  tt E hn

theorem unannotatedType_t (E : Env root rec) (hn : In root n) : P (New.unannotatedType rec n) (Kid .I) := by
  unfold New.unannotatedType
  tt E hn

theorem simpleType_t (E : Env root rec) (hn : In root n) : P (New.simpleType rec n) (Kid .I) := by
  unfold New.simpleType
  tt E hn

theorem variableInitializer_t (E : Env root rec) (hn : In root n) : P (New.variableInitializer rec n) (Kid .I) := by
  unfold New.variableInitializer
  tt E hn

theorem expression_t (E : Env root rec) (hn : In root n) : P (New.expression rec n) (Kid .I) := by
  unfold New.expression
  tt E hn

theorem primaryExpression_t (E : Env root rec) (hn : In root n) : P (New.primaryExpression rec n) (Kid .I) := by
  unfold New.primaryExpression
  tt E hn

theorem classLiteral_t (E : Env root rec) (hn : In root n) : P (New.classLiteral rec n) (Kid .I) := by
  unfold New.classLiteral
  tt E hn

theorem literal_t (E : Env root rec) (hn : In root n) : P (New.literal rec n) (Kid .I) := by
  unfold New.literal
  tt E hn

theorem modifierKind_t (E : Env root rec) (hn : In root n) : P (New.modifierKind n) (Kid .I) := by
  unfold New.modifierKind
  tt E hn

theorem statement_t (E : Env root rec) (hn : In root n) : P (New.statement rec n) (Kid .I) := by
  unfold New.statement
  tt E hn

theorem type_t (E : Env root rec) (hn : In root n) : P (New.type rec n) (Kid .I) := by
  unfold New.type
  tt E hn

theorem triggerEventVariant_t (E : Env root rec) (hn : In root n) : P (New.triggerEventVariant n) (Kid .I) := by
  unfold New.triggerEventVariant
  tt E hn

theorem selectClauseVariant_t (E : Env root rec) (hn : In root n) : P (New.selectClauseVariant rec n) (Kid .I) := by
  unfold New.selectClauseVariant
  tt E hn

theorem selectableExpression_t (E : Env root rec) (hn : In root n) : P (New.selectableExpression rec n) (Kid .I) := by
  unfold New.selectableExpression
  tt E hn

theorem fieldsExpression_t (E : Env root rec) (hn : In root n) : P (New.fieldsExpression rec n) (Kid .I) := by
  unfold New.fieldsExpression
  tt E hn

theorem aliasExpression_t (E : Env root rec) (hn : In root n) : P (New.aliasExpression rec n) (Kid .I) := by
  unfold New.aliasExpression
  tt E hn

theorem fieldIdentifierVariant_t (E : Env root rec) (hn : In root n) : P (New.fieldIdentifierVariant rec n) (Kid .I) := by
  unfold New.fieldIdentifierVariant
  tt E hn

theorem storageVariant_t (E : Env root rec) (hn : In root n) : P (New.storageVariant rec n) (Kid .I) := by
  unfold New.storageVariant
  tt E hn

theorem storageIdentifierVariant_t (E : Env root rec) (hn : In root n) : P (New.storageIdentifierVariant rec n) (Kid .I) := by
  unfold New.storageIdentifierVariant
  tt E hn

theorem limitValue_t (E : Env root rec) (hn : In root n) : P (New.limitValue rec n) (Kid .I) := by
  unfold New.limitValue
  tt E hn

theorem booleanExpression_t (E : Env root rec) (hn : In root n) : P (New.booleanExpression rec n) (Kid .I) := by
  unfold New.booleanExpression
  tt E hn

theorem valueExpression_t (E : Env root rec) (hn : In root n) : P (New.valueExpression rec n) (Kid .I) := by
  unfold New.valueExpression
  tt E hn

theorem comparison_t (E : Env root rec) (hn : In root n) : P (New.comparison rec n) (Kid .I) := by
  unfold New.comparison
  tt E hn

theorem soqlLiteral_t (E : Env root rec) (hn : In root n) : P (New.soqlLiteral rec n) (Kid .I) := by
  unfold New.soqlLiteral
  tt E hn

theorem dateLiteralWithParam_t (E : Env root rec) (hn : In root n) : P (New.dateLiteralWithParam n) (Kid .I) := by
  unfold New.dateLiteralWithParam
  tt E hn

theorem setValue_t (E : Env root rec) (hn : In root n) : P (New.setValue rec n) (Kid .I) := by
  unfold New.setValue
  tt E hn

theorem comparableListValue_t (E : Env root rec) (hn : In root n) : P (New.comparableListValue rec n) (Kid .I) := by
  unfold New.comparableListValue
  tt E hn

theorem offsetClause_t (E : Env root rec) (hn : In root n) : P (New.offsetClause rec n) (Kid .I) := by
  unfold New.offsetClause
  tt E hn

theorem functionExpressionVariant_t (E : Env root rec) (hn : In root n) : P (New.functionExpressionVariant rec n) (Kid .I) := by
  unfold New.functionExpressionVariant
  tt E hn

end Afmt.Lines
