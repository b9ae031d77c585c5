import Verif.Ast.Knot
import Verif.Gap.Tac

/-!
# Blanks in the programs of the constructors: by the tactic
-/

set_option linter.unusedVariables false
set_option linter.unusedSimpArgs false

namespace Afmt.Gap
open Afmt.Prog
open Afmt.Lines (P P_bind P_ok P_pure P_err P_any P_mono P_get P_of P_guard InL InO InL_vec InL_named InL_try InL_filter InL_drop InL_tail InL_head InL_last InO_K InO_N InO_first mapR_ne fullKinds callable)
set_option maxRecDepth 4000
variable [Mode] {root : Node} {rec : Rec} {n : Loc} {cfg : Cfg}

theorem withNetworkExpression_t (E : Env root rec) (hn : In root n) : P (New.withNetworkExpression rec n) (Kid .E) := by
  unfold New.withNetworkExpression
  wt E hn

theorem withMetadataExpression_t (E : Env root rec) (hn : In root n) : P (New.withMetadataExpression rec n) (Kid .E) := by
  unfold New.withMetadataExpression
  wt E hn

theorem withSpellCorrectionExpression_t (E : Env root rec) (hn : In root n) : P (New.withSpellCorrectionExpression rec n) (Kid .E) := by
  unfold New.withSpellCorrectionExpression
  wt E hn

theorem withPriceBookExpression_t (E : Env root rec) (hn : In root n) : P (New.withPriceBookExpression rec n) (Kid .E) := by
  unfold New.withPriceBookExpression
  wt E hn

theorem dottedIdentifier_t (E : Env root rec) (hn : In root n) : P (New.dottedIdentifier rec n) (Kid .E) := by
  unfold New.dottedIdentifier
  wt E hn

theorem valueNode_t (E : Env root rec) (hn : In root n) (hw : Wordy n.value) : P (New.valueNode n) (Kid .E) := by
  unfold New.valueNode
  wt E hn

theorem valueNodeLowerCase_t (E : Env root rec) (hn : In root n) (hw : Wordy n.value) : P (New.valueNodeLowerCase n) (Kid .E) := by
  unfold New.valueNodeLowerCase
  wt E hn

theorem valueNodeUpperCase_t (E : Env root rec) (hn : In root n) (hw : Wordy n.value) : P (New.valueNodeUpperCase n) (Kid .E) := by
  unfold New.valueNodeUpperCase
  wt E hn

theorem expressionStatement_t (E : Env root rec) (hn : In root n) : P (New.expressionStatement rec n) (Kid .E) := by
  unfold New.expressionStatement
  wt E hn

theorem safeNavigationOperator_t (E : Env root rec) (hn : In root n) : P (New.safeNavigationOperator n) (Kid .E) := by
  unfold New.safeNavigationOperator
  wt E hn

theorem countExpression_t (E : Env root rec) (hn : In root n) : P (New.countExpression rec n) (Kid .E) := by
  unfold New.countExpression
  wt E hn

theorem functionExpression_t (E : Env root rec) (hn : In root n) : P (New.wrapper rec "function_expression" .functionExpressionVariant n) (Kid .E) := by
  unfold New.wrapper
  wt E hn

theorem fieldIdentifier_t (E : Env root rec) (hn : In root n) : P (New.wrapper rec "field_identifier" .fieldIdentifierVariant n) (Kid .E) := by
  unfold New.wrapper
  wt E hn

theorem geoLocationType_t (E : Env root rec) (hn : In root n) : P (New.wrapper rec "geo_location_type" .geoLocationTypeVariant n) (Kid .E) := by
  unfold New.wrapper
  wt E hn

theorem selectClause_t (E : Env root rec) (hn : In root n) : P (New.wrapper rec "select_clause" .selectClauseVariant n) (Kid .E) := by
  unfold New.wrapper
  wt E hn

theorem storageIdentifier_t (E : Env root rec) (hn : In root n) : P (New.wrapper rec "storage_identifier" .storageIdentifierVariant n) (Kid .E) := by
  unfold New.wrapper
  wt E hn

theorem soqlWithType_t (E : Env root rec) (hn : In root n) : P (New.wrapper rec "with_type" .soqlWithTypeVariant n) (Kid .E) := by
  unfold New.wrapper
  wt E hn

theorem forClause_t (E : Env root rec) (hn : In root n) : P (New.forClause rec n) (Kid .E) := by
  unfold New.forClause
  wt E hn

theorem allRowsClause_t (E : Env root rec) (hn : In root n) : P (New.allRowsClause n) (Kid .E) := by
  unfold New.allRowsClause
  wt E hn

theorem updateExpression_t (E : Env root rec) (hn : In root n) : P (New.wrapper rec "update_expression" .updateExpressionVariant n) (Kid .E) := by
  unfold New.wrapper
  wt E hn

theorem dmlExpression_t (E : Env root rec) (hn : In root n) : P (New.wrapper rec "dml_expression" .dmlExpressionVariant n) (Kid .E) := by
  unfold New.wrapper
  wt E hn

theorem dmlType_t (E : Env root rec) (hn : In root n) : P (New.dmlType rec n) (Kid .E) := by
  unfold New.dmlType
  wt E hn

theorem rootMember_t (E : Env root rec) (hn : In root n) : P (New.rootMember rec n) (Kid .E) := by
  unfold New.rootMember
  wt E hn

theorem classMember_t (E : Env root rec) (hn : In root n) : P (New.classMember rec n) (Kid .E) := by
  unfold New.classMember
  wt E hn

theorem unannotatedType_t (E : Env root rec) (hn : In root n) : P (New.unannotatedType rec n) (Kid .E) := by
  unfold New.unannotatedType
  wt E hn

theorem simpleType_t (E : Env root rec) (hn : In root n) : P (New.simpleType rec n) (Kid .E) := by
  unfold New.simpleType
  wt E hn

theorem variableInitializer_t (E : Env root rec) (hn : In root n) : P (New.variableInitializer rec n) (Kid .E) := by
  unfold New.variableInitializer
  wt E hn

theorem expression_t (E : Env root rec) (hn : In root n) : P (New.expression rec n) (Kid .E) := by
  unfold New.expression
  wt E hn

theorem primaryExpression_t (E : Env root rec) (hn : In root n) : P (New.primaryExpression rec n) (Kid .E) := by
  unfold New.primaryExpression
  wt E hn

theorem classLiteral_t (E : Env root rec) (hn : In root n) : P (New.classLiteral rec n) (Kid .E) := by
  unfold New.classLiteral
  wt E hn

theorem literal_t (E : Env root rec) (hn : In root n) : P (New.literal rec n) (Kid .E) := by
  unfold New.literal
  wt E hn

theorem modifierKind_t (E : Env root rec) (hn : In root n) : P (New.modifierKind n) (Kid .E) := by
  unfold New.modifierKind
  wt E hn

theorem statement_t (E : Env root rec) (hn : In root n) : P (New.statement rec n) (fun p => T .L [p] .E ∧ (n.kind ≠ ";" → Kid .E p)) := by
  unfold New.statement
  have h : n.kind ≠ ";" → ∀ {r : R Prog}, P r (Kid .E) → P r (fun p => T .L [p] .E ∧ (n.kind ≠ ";" → Kid .E p)) :=
    fun h _ hr => P_mono hr (fun p hp => ⟨T_kid hp (by decide) (T_nil (by decide)), fun _ => hp⟩)
  split
  · rename_i hk
    exact P_ok ⟨T_semi (by decide) (T_nil (by decide)), fun h => absurd hk h⟩
  · rename_i hk
    exact h hk (Env.dispatch E hn (by decide))

theorem type_t (E : Env root rec) (hn : In root n) : P (New.type rec n) (Kid .E) := by
  unfold New.type
  wt E hn

theorem triggerEventVariant_t (E : Env root rec) (hn : In root n) : P (New.triggerEventVariant n) (Kid .E) := by
  unfold New.triggerEventVariant
  wt E hn

theorem selectClauseVariant_t (E : Env root rec) (hn : In root n) : P (New.selectClauseVariant rec n) (Kid .E) := by
  unfold New.selectClauseVariant
  wt E hn

theorem selectableExpression_t (E : Env root rec) (hn : In root n) : P (New.selectableExpression rec n) (Kid .E) := by
  unfold New.selectableExpression
  wt E hn

theorem fieldsExpression_t (E : Env root rec) (hn : In root n) : P (New.fieldsExpression rec n) (Kid .E) := by
  unfold New.fieldsExpression
  wt E hn

theorem aliasExpression_t (E : Env root rec) (hn : In root n) : P (New.aliasExpression rec n) (Kid .E) := by
  unfold New.aliasExpression
  wt E hn

theorem fieldIdentifierVariant_t (E : Env root rec) (hn : In root n) : P (New.fieldIdentifierVariant rec n) (Kid .E) := by
  unfold New.fieldIdentifierVariant
  wt E hn

theorem storageVariant_t (E : Env root rec) (hn : In root n) : P (New.storageVariant rec n) (Kid .E) := by
  unfold New.storageVariant
  wt E hn

theorem storageIdentifierVariant_t (E : Env root rec) (hn : In root n) : P (New.storageIdentifierVariant rec n) (Kid .E) := by
  unfold New.storageIdentifierVariant
  wt E hn

theorem limitValue_t (E : Env root rec) (hn : In root n) : P (New.limitValue rec n) (Kid .E) := by
  unfold New.limitValue
  wt E hn

theorem booleanExpression_t (E : Env root rec) (hn : In root n) : P (New.booleanExpression rec n) (Kid .E) := by
  unfold New.booleanExpression
  wt E hn

theorem valueExpression_t (E : Env root rec) (hn : In root n) : P (New.valueExpression rec n) (Kid .E) := by
  unfold New.valueExpression
  wt E hn

theorem comparison_t (E : Env root rec) (hn : In root n) : P (New.comparison rec n) Led := by
  unfold New.comparison
  split
  · rename_i o ho
    have := (E.oper o (in_tryCByK hn ho) (by rw [kind_tryCByK ho]; decide)).1
    wt E hn
  · split
    · rename_i o ho
      have := (E.oper o (in_tryCByK hn ho) (by rw [kind_tryCByK ho]; decide)).1
      wt E hn
    · exact P_err

theorem soqlLiteral_t (E : Env root rec) (hn : In root n) : P (New.soqlLiteral rec n) (Kid .E) := by
  unfold New.soqlLiteral
  wt E hn

theorem dateLiteralWithParam_t (E : Env root rec) (hn : In root n) : P (New.dateLiteralWithParam n) (Kid .E) := by
  unfold New.dateLiteralWithParam
  wt E hn

theorem setValue_t (E : Env root rec) (hn : In root n) : P (New.setValue rec n) (Kid .E) := by
  unfold New.setValue
  wt E hn

theorem comparableListValue_t (E : Env root rec) (hn : In root n) : P (New.comparableListValue rec n) (Kid .E) := by
  unfold New.comparableListValue
  wt E hn

theorem offsetClause_t (E : Env root rec) (hn : In root n) : P (New.offsetClause rec n) (Kid .E) := by
  unfold New.offsetClause
  wt E hn

theorem functionExpressionVariant_t (E : Env root rec) (hn : In root n) : P (New.functionExpressionVariant rec n) (Kid .E) := by
  unfold New.functionExpressionVariant
  refine P_bind (Env.check E) (fun _ _ hk => ?_)
  split
  · rename_i g hg
    have hgeo := E.geo n hn hk (by rw [hg]; simp)
    refine P_bind (Env.cByNw E hn (by decide)) (fun f _ hf => ?_)
    refine P_bind (Env.recP E _ _ hf.1 rfl (fun _ => hf.2)) (fun f _ hf => ?_)
    refine P_bind (Env.optP E (InO_K hn) rfl (by wo)) (fun a ha' ha => ?_)
    refine P_bind (Env.optP E (InO_K hn) rfl (by wo)) (fun b hb' hb => ?_)
    have hne : ∀ {o : Option Loc} {c : Cls} {r : Option Prog}, o ≠ none → optR o (rec c) = .ok r → ∃ p, r = some p := by
      intro o c r h1 h2
      cases o with
      | none => exact absurd rfl h1
      | some x =>
        simp only [optR] at h2
        split at h2
        · exact ⟨_, (Except.ok.inj h2).symm⟩
        · cases h2
    have hab : ∀ {qs : List Prog} {e : St}, T .E qs e → T .O (opt a ++ (opt b ++ qs)) e := by
      intro qs e h
      rcases hgeo with h1 | h1
      · obtain ⟨p, rfl⟩ := hne h1 ha'
        exact T_kid (OptK_get ha) (by decide) (T_optN hb (by decide) (T_start (by decide) h))
      · obtain ⟨p, rfl⟩ := hne h1 hb'
        exact T_optN ha (by decide) (T_kid (OptK_get hb) (by decide) h)
    refine P_bind (Env.recP E _ _ (in_tryCByK hn hg) rfl (by wo)) (fun g _ hg => ?_)
    refine P_bind (Env.cByKw E hn (by decide)) (fun s _ hs => ?_)
    refine P_bind (Env.recP E _ _ hs.1 rfl (fun _ => hs.2)) (fun s _ hs => ?_)
    refine P_ok (Kid_of (T_concat ?_))
    simp only [List.cons_append, List.nil_append, List.append_assoc]
    refine T_kid hf (by decide) (T_tO (by decide) (hab ?_))
    simp only [endOf] at *
    wt E hn
  · wt E hn

end Afmt.Gap
