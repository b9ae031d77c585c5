import Verif.Gap.Pass1
import Verif.Gap.Pass2
import Verif.Gap.Pass3
import Verif.Gap.Pass4

/-!
# Blanks in the programs of all constructors
-/

namespace Afmt.Gap
open Afmt.Prog
open Afmt.Lines (P P_err P_get P_ok)

variable [Mode] {root : Node} {rec : Rec} {cfg : Cfg}

/-- One constructor call. -/
theorem step_t (E : Env root rec) {n : Loc} (hn : In root n) : ∀ c, plainly c = true → (wordCls c = true → Wordy n.value) → P (Prog.step cfg rec c n) (Kid (endOf c))
  | .functionExpression, _, hw => functionExpression_t E hn
  | .fieldIdentifier, _, hw => fieldIdentifier_t E hn
  | .geoLocationType, _, hw => geoLocationType_t E hn
  | .selectClause, _, hw => selectClause_t E hn
  | .storageIdentifier, _, hw => storageIdentifier_t E hn
  | .soqlWithType, _, hw => soqlWithType_t E hn
  | .updateExpression, _, hw => updateExpression_t E hn
  | .dmlExpression, _, hw => dmlExpression_t E hn
  | .conditionExpression, _, hw => conditionExpression_t E hn
  | .root, h, hw => by cases h
  | .classDeclaration, _, hw => classDeclaration_t E hn
  | .methodDeclaration, _, hw => methodDeclaration_t E hn
  | .formalParameters, _, hw => formalParameters_t E hn
  | .formalParameter, _, hw => formalParameter_t E hn
  | .superClass, _, hw => superClass_t E hn
  | .modifiers, _, hw => modifiers_t E hn
  | .modifier, _, hw => modifier_t E hn
  | .annotation, _, hw => annotation_t E hn
  | .annotationKeyValue, _, hw => annotationKeyValue_t E hn
  | .classBody, _, hw => classBody_t E hn
  | .fieldDeclaration, _, hw => fieldDeclaration_t E hn
  | .arrayInitializer, _, hw => arrayInitializer_t E hn
  | .assignmentExpression, _, hw => assignmentExpression_t E hn
  | .assignmentLeft, _, hw => assignmentLeft_t E hn
  | .boolType, _, hw => boolType_t E hn
  | .block, _, hw => block_t E hn
  | .interface, _, hw => interface_t E hn
  | .typeList, _, hw => typeList_t E hn
  | .objectExpression, _, hw => objectExpression_t E hn
  | .methodInvocation, _, hw => methodInvocation_t E hn
  | .typeArguments, _, hw => typeArguments_t E hn
  | .argumentList, _, hw => argumentList_t E hn
  | .super, _, hw => super_t E hn
  | .this, _, hw => this_t E hn
  | .binaryExpression, _, hw => binaryExpression_t E hn
  | .localVariableDeclaration, _, hw => localVariableDeclaration_t E hn
  | .variableDeclarator, _, hw => variableDeclarator_t E hn
  | .genericType, _, hw => genericType_t E hn
  | .ifStatement, _, hw => ifStatement_t E hn
  | .parenthesizedExpression, _, hw => parenthesizedExpression_t E hn
  | .forInitOption, _, hw => forInitOption_t E hn
  | .forStatement, _, hw => forStatement_t E hn
  | .enhancedForStatement, _, hw => enhancedForStatement_t E hn
  | .updateExpressionVariant, _, hw => updateExpressionVariant_t E hn
  | .scopedTypeIdentifier, _, hw => scopedTypeIdentifier_t E hn
  | .constructorDeclaration, _, hw => constructorDeclaration_t E hn
  | .constructorBody, _, hw => constructorBody_t E hn
  | .constructInvocation, _, hw => constructInvocation_t E hn
  | .typeParameters, _, hw => typeParameters_t E hn
  | .typeParameter, _, hw => typeParameter_t E hn
  | .objectCreationExpression, _, hw => objectCreationExpression_t E hn
  | .runAsStatement, _, hw => runAsStatement_t E hn
  | .doStatement, _, hw => doStatement_t E hn
  | .whileStatement, _, hw => whileStatement_t E hn
  | .unaryExpression, _, hw => unaryExpression_t E hn
  | .fieldAccess, _, hw => fieldAccess_t E hn
  | .fieldOption, _, hw => fieldOption_t E hn (hw rfl)
  | .enumDeclaration, _, hw => enumDeclaration_t E hn
  | .enumBody, _, hw => enumBody_t E hn
  | .enumConstant, _, hw => enumConstant_t E hn
  | .dmlExpressionVariant, _, hw => dmlExpressionVariant_t E hn
  | .dmlSecurityMode, _, hw => dmlSecurityMode_t E hn
  | .dmlTypeVariant, _, hw => dmlTypeVariant_t E hn
  | .arrayAccess, _, hw => arrayAccess_t E hn
  | .arrayCreationExpression, _, hw => arrayCreationExpression_t E hn
  | .dimensions, _, hw => dimensions_t E hn
  | .dimensionsExpr, _, hw => dimensionsExpr_t E hn
  | .returnStatement, _, hw => returnStatement_t E hn
  | .ternaryExpression, _, hw => ternaryExpression_t E hn
  | .tryStatement, _, hw => tryStatement_t E hn
  | .catchClause, h, hw => by cases h
  | .finallyClause, h, hw => by cases h
  | .staticInitializer, _, hw => staticInitializer_t E hn
  | .interfaceDeclaration, _, hw => interfaceDeclaration_t E hn
  | .extendsInterface, h, hw => by cases h
  | .interfaceBody, _, hw => interfaceBody_t E hn
  | .interfaceMember, _, hw => interfaceMember_t E hn
  | .constantDeclaration, _, hw => constantDeclaration_t E hn
  | .accessorList, _, hw => accessorList_t E hn
  | .accessorDeclaration, _, hw => accessorDeclaration_t E hn
  | .castExpression, _, hw => castExpression_t E hn
  | .throwStatement, _, hw => throwStatement_t E hn
  | .breakStatement, _, hw => breakStatement_t E hn
  | .continueStatement, _, hw => continueStatement_t E hn
  | .switchExpression, _, hw => switchExpression_t E hn
  | .switchBlock, _, hw => switchBlock_t E hn
  | .switchRule, _, hw => switchRule_t E hn
  | .switchLabel, _, hw => switchLabel_t E hn
  | .whenSObjectType, _, hw => whenSObjectType_t E hn
  | .instanceOfExpression, _, hw => instanceOfExpression_t E hn
  | .versionExpression, _, hw => versionExpression_t E hn
  | .javaFieldAccess, _, hw => javaFieldAccess_t E hn
  | .javaType, _, hw => javaType_t E hn
  | .arrayType, _, hw => arrayType_t E hn
  | .triggerDeclaration, _, hw => triggerDeclaration_t E hn
  | .triggerEvent, _, hw => triggerEvent_t E hn
  | .triggerBody, _, hw => triggerBody_t E hn
  | .queryExpression, _, hw => queryExpression_t E hn
  | .soslQueryBody, _, hw => soslQueryBody_t E hn
  | .findClause, _, hw => findClause_t E hn
  | .inClause, _, hw => inClause_t E hn
  | .returningClause, _, hw => returningClause_t E hn
  | .sObjectReturn, _, hw => sObjectReturn_t E hn
  | .soqlQueryBody, _, hw => soqlQueryBody_t E hn
  | .fromClause, _, hw => fromClause_t E hn
  | .storageAlias, _, hw => storageAlias_t E hn
  | .limitClause, _, hw => limitClause_t E hn
  | .updateClause, _, hw => updateClause_t E hn
  | .boundApexExpression, _, hw => boundApexExpression_t E hn
  | .soslUsingClause, _, hw => soslUsingClause_t E hn
  | .usingSearch, _, hw => usingSearch_t E hn
  | .usingClause, _, hw => usingClause_t E hn
  | .usingClauseOption, _, hw => usingClauseOption_t E hn
  | .usingScopeClause, _, hw => usingScopeClause_t E hn
  | .usingLookupClause, _, hw => usingLookupClause_t E hn
  | .usingListviewClause, _, hw => usingListviewClause_t E hn
  | .usingLookupBindClause, _, hw => usingLookupBindClause_t E hn
  | .usingLookupBindExpression, _, hw => usingLookupBindExpression_t E hn
  | .whereClause, _, hw => whereClause_t E hn
  | .comparisonExpression, _, hw => comparisonExpression_t E hn
  | .comparableList, _, hw => comparableList_t E hn
  | .orderByClause, _, hw => orderByClause_t E hn
  | .orderExpression, _, hw => orderExpression_t E hn
  | .subQuery, _, hw => subQuery_t E hn
  | .mapCreationExpression, _, hw => mapCreationExpression_t E hn
  | .mapInitializer, _, hw => mapInitializer_t E hn
  | .mapKeyInitializer, _, hw => mapKeyInitializer_t E hn
  | .groupByClause, _, hw => groupByClause_t E hn
  | .havingClause, _, hw => havingClause_t E hn
  | .soslWithClause, _, hw => soslWithClause_t E hn
  | .soqlWithClause, _, hw => soqlWithClause_t E hn
  | .soqlWithTypeVariant, _, hw => soqlWithTypeVariant_t E hn (hw rfl)
  | .soslWithType, _, hw => soslWithType_t E hn
  | .withDataCatExpression, _, hw => withDataCatExpression_t E hn
  | .withDataCatFilter, _, hw => withDataCatFilter_t E hn
  | .withDivisionExpression, _, hw => withDivisionExpression_t E hn
  | .withSnippetExpression, _, hw => withSnippetExpression_t E hn
  | .withNetworkExpression, _, hw => withNetworkExpression_t E hn
  | .withMetadataExpression, _, hw => withMetadataExpression_t E hn
  | .withSpellCorrectionExpression, _, hw => withSpellCorrectionExpression_t E hn
  | .withPriceBookExpression, _, hw => withPriceBookExpression_t E hn
  | .dottedIdentifier, _, hw => dottedIdentifier_t E hn
  | .valueNode, _, hw => valueNode_t E hn (hw rfl)
  | .valueNodeLowerCase, _, hw => valueNodeLowerCase_t E hn (hw rfl)
  | .valueNodeUpperCase, _, hw => valueNodeUpperCase_t E hn (hw rfl)
  | .expressionStatement, _, hw => expressionStatement_t E hn
  | .safeNavigationOperator, _, hw => safeNavigationOperator_t E hn
  | .countExpression, _, hw => countExpression_t E hn
  | .andExpression, _, hw => andExpression_t E hn
  | .orExpression, _, hw => orExpression_t E hn
  | .notExpression, _, hw => notExpression_t E hn
  | .forClause, _, hw => forClause_t E hn
  | .allRowsClause, _, hw => allRowsClause_t E hn
  | .dmlType, _, hw => dmlType_t E hn
  | .rootMember, _, hw => rootMember_t E hn
  | .classMember, _, hw => classMember_t E hn
  | .unannotatedType, _, hw => unannotatedType_t E hn
  | .simpleType, _, hw => simpleType_t E hn
  | .variableInitializer, _, hw => variableInitializer_t E hn
  | .expression, _, hw => expression_t E hn
  | .primaryExpression, _, hw => primaryExpression_t E hn
  | .classLiteral, _, hw => classLiteral_t E hn
  | .literal, _, hw => literal_t E hn
  | .modifierKind, _, hw => modifierKind_t E hn
  | .statement, h, hw => by cases h
  | .type, _, hw => type_t E hn
  | .annotationArgumentList, h, hw => by cases h
  | .triggerEventVariant, _, hw => triggerEventVariant_t E hn
  | .selectClauseVariant, _, hw => selectClauseVariant_t E hn
  | .selectableExpression, _, hw => selectableExpression_t E hn
  | .fieldsExpression, _, hw => fieldsExpression_t E hn
  | .aliasExpression, _, hw => aliasExpression_t E hn
  | .fieldIdentifierVariant, _, hw => fieldIdentifierVariant_t E hn
  | .storageVariant, _, hw => storageVariant_t E hn
  | .storageIdentifierVariant, _, hw => storageIdentifierVariant_t E hn
  | .limitValue, _, hw => limitValue_t E hn
  | .booleanExpression, _, hw => booleanExpression_t E hn
  | .valueExpression, _, hw => valueExpression_t E hn
  | .geoLocationTypeVariant, _, hw => geoLocationTypeVariant_t E hn
  | .comparison, h, hw => by cases h
  | .soqlLiteral, _, hw => soqlLiteral_t E hn
  | .dateLiteralWithParam, _, hw => dateLiteralWithParam_t E hn
  | .setValue, _, hw => setValue_t E hn
  | .comparableListValue, _, hw => comparableListValue_t E hn
  | .offsetClause, _, hw => offsetClause_t E hn
  | .functionExpressionVariant, _, hw => functionExpressionVariant_t E hn

/-- One call of a constructor whose program begins with a blank. -/
theorem led_t (E : Env root rec) {n : Loc} (hn : In root n) (c : Cls) (hc : ledCls c = true) : P (Prog.step cfg rec c n) Led := by
  cases c with
  | catchClause => exact catchClause_t E hn
  | finallyClause => exact finallyClause_t E hn
  | extendsInterface => exact extendsInterface_t E hn
  | comparison => exact comparison_t E hn
  | _ => cases hc

/-- A value that may be printed as an operator. -/
theorem sign_t {n : Loc} (ho : Oper n.value) (hp : Punc.from n = none) : P (New.valueNode n) Infix :=
  P_ok (Infix_of (T_bwcp0 hp (T_oper ho (T_nil (St.le_refl _))) (T_nil (St.le_refl _))))

/-- A value between any states. -/
theorem vals_t {n : Loc} {a e : St} (ha : a ≤ .code) (he : e ≤ .E) (hn : St.N ≤ e) (h : Goes a n.value e) :
    P (New.valueNode n) (fun p => T a [p] e) :=
  P_ok (T_bwcpK (T_txt ha h (T_nil (St.le_refl _))) he hn (T_nil (St.le_refl _)))

/-- Constructors of any recursion depth. -/
theorem new_env (h : GapTree root) : ∀ fuel, Env root (new cfg fuel)
  | 0 => ⟨h, fun _ _ _ _ _ => P_err, fun _ _ _ _ => P_err, fun _ _ => P_err, fun _ _ _ _ => P_err, fun _ _ => P_err,
      fun _ _ _ _ _ _ _ _ => P_err⟩
  | fuel + 1 =>
    have E := new_env h fuel
    ⟨h, fun c _ hl hc hw => step_t E hl c hc hw, fun c _ hl hc => led_t E hl c hc, fun _ hl => annotationArgumentList_t E hl,
      fun _ _ ho hp => sign_t ho hp, fun _ hl => statement_t E hl, fun _ _ _ _ ha he hn h => vals_t ha he hn h⟩

/-- The program of the whole tree. -/
theorem root_run (h : GapTree root) {fuel : Nat} {p : Prog} (hp : new cfg fuel .root ⟨root, []⟩ = .ok p) :
    wp Mode.tight (gs p) code .L = true := by
  cases fuel with
  | zero => cases hp
  | succ fuel =>
    have := P_get (Q := fun p => T .L [p] .code) (root_t (cfg := cfg) (new_env h fuel) .root) hp
    exact T_wp this rfl

end Afmt.Gap
