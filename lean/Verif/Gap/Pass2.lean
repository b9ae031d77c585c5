import Verif.Ast.Knot
import Verif.Gap.Tac

/-!
# Blanks in the programs of the constructors: by the tactic
-/

set_option linter.unusedVariables false
set_option linter.unusedSimpArgs false

namespace Afmt.Gap
open Afmt.Prog
open Afmt.Lines (P P_bind P_ok P_pure P_err P_any P_mono P_get P_of P_guard InL InO InL_vec InL_named InL_try InL_filter InL_drop InL_tail InL_head InL_last InO_K InO_N InO_first mapR_ne fullKinds callable)
set_option maxRecDepth 4000
variable [Mode] {root : Node} {rec : Rec} {n : Loc} {cfg : Cfg}

theorem classDeclaration_t (E : Env root rec) (hn : In root n) : P (New.classDeclaration rec n) (Kid .E) := by
  unfold New.classDeclaration
  wt E hn

theorem methodDeclaration_t (E : Env root rec) (hn : In root n) : P (New.methodDeclaration rec n) (Kid .E) := by
  unfold New.methodDeclaration
  wt E hn

theorem formalParameters_t (E : Env root rec) (hn : In root n) : P (New.formalParameters rec n) (Kid .E) := by
  unfold New.formalParameters
  wt E hn

theorem formalParameter_t (E : Env root rec) (hn : In root n) : P (New.formalParameter rec n) (Kid .E) := by
  unfold New.formalParameter
  wt E hn

theorem superClass_t (E : Env root rec) (hn : In root n) : P (New.superClass rec n) (Kid .E) := by
  unfold New.superClass
  wt E hn

theorem modifier_t (E : Env root rec) (hn : In root n) : P (New.modifier rec n) (Kid .E) := by
  unfold New.modifier
  wt E hn

theorem annotationKeyValue_t (E : Env root rec) (hn : In root n) : P (New.annotationKeyValue rec n) (Kid .E) := by
  unfold New.annotationKeyValue
  refine P_bind (Env.check E) (fun _ _ hk => ?_)
  obtain ⟨ht, h1, h2⟩ := E.anno n hn hk
  refine P_bind (Q := fun k => In root k ∧ Goes .X k.value .N) (P_of fun _ h => ⟨in_cByN hn h, h1 _ (try_of_cByN h)⟩) (fun k _ hk => ?_)
  refine P_bind (E.vals k .X .N hk.1 (by decide) (by decide) (by decide) hk.2) (fun k _ hk => ?_)
  refine P_bind (Q := fun k => In root k ∧ Goes .T k.value .E) (P_of fun _ h => ⟨in_cByN hn h, h2 _ (try_of_cByN h)⟩) (fun v _ hv => ?_)
  refine P_bind (E.vals v .T .E hv.1 (by decide) (by decide) (by decide) hv.2) (fun v _ hv => ?_)
  exact P_ok (Kid_of (T_bwcpN (T_cons hk (T_eqTight ht hv)) (T_nil (by decide))))

theorem classBody_t (E : Env root rec) (hn : In root n) : P (New.classBody cfg rec n) (Kid .E) := by
  unfold New.classBody
  wt E hn

theorem fieldDeclaration_t (E : Env root rec) (hn : In root n) : P (New.fieldDeclaration rec n) (Kid .E) := by
  unfold New.fieldDeclaration
  wt E hn

theorem arrayInitializer_t (E : Env root rec) (hn : In root n) : P (New.arrayInitializer rec n) (Kid .E) := by
  unfold New.arrayInitializer
  wt E hn

theorem assignmentExpression_t (E : Env root rec) (hn : In root n) : P (New.assignmentExpression rec n) (Kid .E) := by
  unfold New.assignmentExpression
  refine P_bind (Env.check E) (fun _ _ hk => ?_)
  refine P_bind (Env.cByN E hn) (fun r _ hr => ?_)
  refine P_bind (Env.cByN E hn) (fun l _ hl => ?_)
  refine P_bind (Env.recP E _ _ hl rfl (by wo)) (fun l _ hl => ?_)
  refine P_bind (Q := fun o => In root o ∧ Oper o.value ∧ Punc.from o = none)
    (P_of fun _ h => ⟨in_cByN hn h, E.assign n _ hn hk (try_of_cByN h)⟩) (fun o _ ho => ?_)
  refine P_bind (E.sign o ho.1 ho.2.1 ho.2.2) (fun o _ ho => ?_)
  refine P_bind (Env.recP E _ _ hr rfl (by wo)) (fun r _ hr => ?_)
  refine P_ok (Kid_of (T_bwcpN ?_ (T_nil (by decide))))
  split
  · exact T_concat (T_kid hl (by decide) (T_tB (by decide) (T_infix ho (T_tB (by decide) (T_kid hr (by decide) (T_nil (by decide)))))))
  · exact T_group (T_indent (T_concat (T_kid hl (by decide) (T_tB (by decide) (T_infix ho (T_soft (by decide) (T_kid hr (by decide) (T_nil (by decide)))))))))

theorem assignmentLeft_t (E : Env root rec) (hn : In root n) : P (New.assignmentLeft rec n) (Kid .E) := by
  unfold New.assignmentLeft
  wt E hn

theorem boolType_t (E : Env root rec) (hn : In root n) : P (New.boolType n) (Kid .E) := by
  unfold New.boolType
  wt E hn

theorem block_t (E : Env root rec) (hn : In root n) : P (New.block cfg rec n) (Kid .E) := by
  unfold New.block
  wt E hn

theorem interface_t (E : Env root rec) (hn : In root n) : P (New.interface rec n) (Kid .E) := by
  unfold New.interface
  wt E hn

theorem typeList_t (E : Env root rec) (hn : In root n) : P (New.typeList rec n) (Kid .E) := by
  unfold New.typeList
  wt E hn

theorem objectExpression_t (E : Env root rec) (hn : In root n) : P (New.objectExpression rec n) (Kid .E) := by
  unfold New.objectExpression
  wt E hn

theorem typeArguments_t (E : Env root rec) (hn : In root n) : P (New.typeArguments rec n) (Kid .E) := by
  unfold New.typeArguments
  wt E hn

theorem argumentList_t (E : Env root rec) (hn : In root n) : P (New.argumentList rec n) (Kid .E) := by
  unfold New.argumentList
  wt E hn

theorem super_t (E : Env root rec) (hn : In root n) : P (New.super n) (Kid .E) := by
  unfold New.super
  wt E hn

theorem this_t (E : Env root rec) (hn : In root n) : P (New.this n) (Kid .E) := by
  unfold New.this
  wt E hn

theorem binaryExpression_t (E : Env root rec) (hn : In root n) : P (New.binaryExpression rec n) (Kid .E) := by
  unfold New.binaryExpression
  refine P_bind (Env.check E) (fun _ _ hk => ?_)
  refine P_bind (Env.cByN E hn) (fun l _ hl => ?_)
  refine P_bind (Env.recP E _ _ hl rfl (by wo)) (fun l _ hl => ?_)
  refine P_bind (Q := fun o => n.cByN "operator" = .ok o) (P_of fun _ h => h) (fun o _ ho => ?_)
  refine P_bind (Env.cByN E hn) (fun r _ hr => ?_)
  refine P_bind (Env.recP E _ _ hr rfl (by wo)) (fun r _ hr => ?_)
  refine P_bind (Q := fun _ => ∃ m, getPrecedence o.kind = .ok m) (P_of fun c hc => ?_) (fun c _ hc => ?_)
  · unfold New.binaryContext at hc
    rw [ho] at hc
    cases hp : getPrecedence o.kind with
    | ok m => exact ⟨m, rfl⟩
    | error x =>
      have : (Except.error x : R New.BinaryContext) = .ok c := by
        rw [← hc]
        show _ = (do let precedence ← getPrecedence o.kind; _)
        rw [hp]
        rfl
      cases this
  · obtain ⟨m, hm⟩ := hc
    have h : T .X [l, .softline, t o.kind, t " ", r] .E :=
      T_kid hl (by decide) (T_soft (by decide) (T_binop hm (T_tB (by decide) (T_kid hr (by decide) (T_nil (by decide))))))
    refine P_ok (Kid_of (T_bwcpN ?_ (T_nil (by decide))))
    split
    · exact T_concat_last h
    · split
      · exact T_group (T_concat_last h)
      · exact T_group (T_indent (T_concat_last h))

theorem localVariableDeclaration_t (E : Env root rec) (hn : In root n) : P (New.localVariableDeclaration rec n) (Kid .E) := by
  unfold New.localVariableDeclaration
  wt E hn

theorem genericType_t (E : Env root rec) (hn : In root n) : P (New.genericType rec n) (Kid .E) := by
  unfold New.genericType
  wt E hn

theorem parenthesizedExpression_t (E : Env root rec) (hn : In root n) : P (New.parenthesizedExpression rec n) (Kid .E) := by
  unfold New.parenthesizedExpression
  wt E hn

theorem forInitOption_t (E : Env root rec) (hn : In root n) : P (New.forInitOption rec n) (Kid .E) := by
  unfold New.forInitOption
  wt E hn

theorem updateExpressionVariant_t (E : Env root rec) (hn : In root n) : P (New.updateExpressionVariant rec n) (Kid .E) := by
  unfold New.updateExpressionVariant
  refine P_bind (Env.check E) (fun _ _ hk => ?_)
  refine P_bind (Q := fun o => Wordy o.value)
    (P_of fun _ h => E.mark n _ hn (by rw [hk]; decide) (by rw [hk]; decide) (try_of_cByN h)) (fun o _ ho => ?_)
  wt E hn

theorem scopedTypeIdentifier_t (E : Env root rec) (hn : In root n) : P (New.scopedTypeIdentifier rec n) (Kid .E) := by
  unfold New.scopedTypeIdentifier
  refine P_bind (Env.check E) (fun _ _ _ => ?_)
  refine P_bind (Env.firstC E hn) (fun c _ hc => ?_)
  refine P_bind (Q := Kid .E) ?_ (fun c _ hc => ?_)
  · split
    · rename_i hk
      have hw := E.wordEq hc hk (by decide)
      exact P_ok (Kid_of (T_val hw (by decide) (T_nil (by decide))))
    · wt E hn
  refine P_bind (Env.mapP E (InL_try hn) rfl (by wo)) (fun as _ ha => ?_)
  refine P_bind (Env.csByKw E hn (by decide)) (fun ls _ hl => ?_)
  split
  · exact P_err
  · rename_i i hi
    have hw := hl.2.last hi
    exact P_ok (Kid_of (T_bwcpN (T_kid hc (by decide) (T_tN (by decide) (T_annotated ha hw (by decide) (by decide)))) (T_nil (by decide))))

theorem constructorDeclaration_t (E : Env root rec) (hn : In root n) : P (New.constructorDeclaration rec n) (Kid .E) := by
  unfold New.constructorDeclaration
  wt E hn

theorem typeParameters_t (E : Env root rec) (hn : In root n) : P (New.typeParameters rec n) (Kid .E) := by
  unfold New.typeParameters
  wt E hn

theorem objectCreationExpression_t (E : Env root rec) (hn : In root n) : P (New.objectCreationExpression rec n) (Kid .E) := by
  unfold New.objectCreationExpression
  wt E hn

theorem runAsStatement_t (E : Env root rec) (hn : In root n) : P (New.runAsStatement rec n) (Kid .E) := by
  unfold New.runAsStatement
  wt E hn

theorem doStatement_t (E : Env root rec) (hn : In root n) : P (New.doStatement rec n) (Kid .E) := by
  unfold New.doStatement
  wt E hn

theorem whileStatement_t (E : Env root rec) (hn : In root n) : P (New.whileStatement rec n) (Kid .E) := by
  unfold New.whileStatement
  refine P_bind (Env.check E) (fun _ _ hk => ?_)
  refine P_bind (Env.cByN E hn) (fun c _ hc => ?_)
  refine P_bind (Env.recP E _ _ hc rfl (by wo)) (fun c _ hc => ?_)
  refine P_bind (Env.cByN E hn) (fun b _ hb => ?_)
  refine P_bind (E.stmt b hb) (fun s _ hs => ?_)
  refine P_ok (Kid_of (T_bwc ?_))
  rw [List.append_nil]
  refine T_tR (by decide) (T_kid hc (by decide) ?_)
  split
  · exact T_nil (by decide)
  · rename_i hk
    exact T_tB (by decide) (T_kid (hs.2 hk) (by decide) (T_nil (by decide)))

theorem unaryExpression_t (E : Env root rec) (hn : In root n) : P (New.unaryExpression rec n) (Kid .E) := by
  unfold New.unaryExpression
  refine P_bind (Env.check E) (fun _ _ hk => ?_)
  refine P_bind (Q := Wordy) (P_of fun s hs => ?_) (fun o _ ho => ?_)
  · unfold Loc.cvalueByN at hs
    split at hs
    · rename_i c hc; cases hs; exact E.mark n _ hn (by rw [hk]; decide) (by rw [hk]; decide) hc
    · cases hs
  wt E hn

theorem fieldOption_t (E : Env root rec) (hn : In root n) (hw : Wordy n.value) : P (New.fieldOption rec n) (Kid .E) := by
  unfold New.fieldOption
  wt E hn

theorem enumDeclaration_t (E : Env root rec) (hn : In root n) : P (New.enumDeclaration rec n) (Kid .E) := by
  unfold New.enumDeclaration
  wt E hn

theorem enumBody_t (E : Env root rec) (hn : In root n) : P (New.enumBody rec n) (Kid .E) := by
  unfold New.enumBody
  wt E hn

theorem enumConstant_t (E : Env root rec) (hn : In root n) : P (New.enumConstant rec n) (Kid .E) := by
  unfold New.enumConstant
  wt E hn

theorem dmlExpressionVariant_t (E : Env root rec) (hn : In root n) : P (New.dmlExpressionVariant rec n) (Kid .E) := by
  unfold New.dmlExpressionVariant
  wt E hn

theorem dmlSecurityMode_t (E : Env root rec) (hn : In root n) : P (New.dmlSecurityMode n) (Kid .E) := by
  unfold New.dmlSecurityMode
  refine P_bind (Env.firstC E hn) (fun c _ hc => ?_)
  split
  · rename_i h
    have hw : Wordy c.value := E.word c hc (by rcases h with h | h <;> rw [h] <;> decide)
    wt E hn
  · exact P_err

theorem dmlTypeVariant_t (E : Env root rec) (hn : In root n) : P (New.dmlTypeVariant n) (Kid .E) := by
  exact P_dml

theorem arrayAccess_t (E : Env root rec) (hn : In root n) : P (New.arrayAccess rec n) (Kid .E) := by
  unfold New.arrayAccess
  wt E hn

theorem arrayCreationExpression_t (E : Env root rec) (hn : In root n) : P (New.arrayCreationExpression rec n) (Kid .E) := by
  unfold New.arrayCreationExpression
  wt E hn

theorem dimensions_t (E : Env root rec) (hn : In root n) : P (New.dimensions n) (Kid .E) := by
  unfold New.dimensions
  wt E hn

theorem dimensionsExpr_t (E : Env root rec) (hn : In root n) : P (New.dimensionsExpr rec n) (Kid .E) := by
  unfold New.dimensionsExpr
  wt E hn

theorem returnStatement_t (E : Env root rec) (hn : In root n) : P (New.returnStatement rec n) (Kid .E) := by
  unfold New.returnStatement
  wt E hn

theorem ternaryExpression_t (E : Env root rec) (hn : In root n) : P (New.ternaryExpression rec n) (Kid .E) := by
  unfold New.ternaryExpression
  wt E hn

theorem catchClause_t (E : Env root rec) (hn : In root n) : P (New.catchClause rec n) Led := by
  unfold New.catchClause
  wt E hn

theorem finallyClause_t (E : Env root rec) (hn : In root n) : P (New.finallyClause rec n) Led := by
  unfold New.finallyClause
  wt E hn

theorem staticInitializer_t (E : Env root rec) (hn : In root n) : P (New.staticInitializer rec n) (Kid .E) := by
  unfold New.staticInitializer
  wt E hn

theorem interfaceDeclaration_t (E : Env root rec) (hn : In root n) : P (New.interfaceDeclaration rec n) (Kid .E) := by
  unfold New.interfaceDeclaration
  wt E hn

theorem extendsInterface_t (E : Env root rec) (hn : In root n) : P (New.extendsInterface rec n) Led := by
  unfold New.extendsInterface
  wt E hn

end Afmt.Gap
