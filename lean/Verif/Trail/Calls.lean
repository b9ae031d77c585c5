import Verif.Trail.Pass1
import Verif.Trail.Pass2
import Verif.Trail.Pass3
import Verif.Trail.Pass4

/-!
# Ends of lines in the programs of all constructors
-/

namespace Afmt.Trail
open Afmt.Prog
open Afmt.Lines (P P_err P_get syms)

variable [Gate] {root : Node} {rec : Rec} {cfg : Cfg}

/-- One constructor call. -/
theorem step_t (E : Env root rec) {n : Loc} (hn : In root n) : ∀ c, plainly c = true → P (Prog.step cfg rec c n) (Kid (endOf c))
  | .functionExpression, _ => functionExpression_t E hn
  | .fieldIdentifier, _ => fieldIdentifier_t E hn
  | .geoLocationType, _ => geoLocationType_t E hn
  | .selectClause, _ => selectClause_t E hn
  | .storageIdentifier, _ => storageIdentifier_t E hn
  | .soqlWithType, _ => soqlWithType_t E hn
  | .updateExpression, _ => updateExpression_t E hn
  | .dmlExpression, _ => dmlExpression_t E hn
  | .conditionExpression, _ => conditionExpression_t E hn
  | .root, h => by cases h
  | .classDeclaration, _ => classDeclaration_t E hn
  | .methodDeclaration, _ => methodDeclaration_t E hn
  | .formalParameters, _ => formalParameters_t E hn
  | .formalParameter, _ => formalParameter_t E hn
  | .superClass, _ => superClass_t E hn
  | .modifiers, _ => modifiers_t E hn
  | .modifier, _ => modifier_t E hn
  | .annotation, _ => annotation_t E hn
  | .annotationKeyValue, _ => annotationKeyValue_t E hn
  | .classBody, _ => classBody_t E hn
  | .fieldDeclaration, _ => fieldDeclaration_t E hn
  | .arrayInitializer, _ => arrayInitializer_t E hn
  | .assignmentExpression, _ => assignmentExpression_t E hn
  | .assignmentLeft, _ => assignmentLeft_t E hn
  | .boolType, _ => boolType_t E hn
  | .block, _ => block_t E hn
  | .interface, _ => interface_t E hn
  | .typeList, _ => typeList_t E hn
  | .objectExpression, _ => objectExpression_t E hn
  | .methodInvocation, _ => methodInvocation_t E hn
  | .typeArguments, _ => typeArguments_t E hn
  | .argumentList, _ => argumentList_t E hn
  | .super, _ => super_t E hn
  | .this, _ => this_t E hn
  | .binaryExpression, _ => binaryExpression_t E hn
  | .localVariableDeclaration, _ => localVariableDeclaration_t E hn
  | .variableDeclarator, _ => variableDeclarator_t E hn
  | .genericType, _ => genericType_t E hn
  | .ifStatement, _ => ifStatement_t E hn
  | .parenthesizedExpression, _ => parenthesizedExpression_t E hn
  | .forInitOption, _ => forInitOption_t E hn
  | .forStatement, _ => forStatement_t E hn
  | .enhancedForStatement, _ => enhancedForStatement_t E hn
  | .updateExpressionVariant, _ => updateExpressionVariant_t E hn
  | .scopedTypeIdentifier, _ => scopedTypeIdentifier_t E hn
  | .constructorDeclaration, _ => constructorDeclaration_t E hn
  | .constructorBody, _ => constructorBody_t E hn
  | .constructInvocation, _ => constructInvocation_t E hn
  | .typeParameters, _ => typeParameters_t E hn
  | .typeParameter, _ => typeParameter_t E hn
  | .objectCreationExpression, _ => objectCreationExpression_t E hn
  | .runAsStatement, _ => runAsStatement_t E hn
  | .doStatement, _ => doStatement_t E hn
  | .whileStatement, _ => whileStatement_t E hn
  | .unaryExpression, _ => unaryExpression_t E hn
  | .fieldAccess, _ => fieldAccess_t E hn
  | .fieldOption, _ => fieldOption_t E hn
  | .enumDeclaration, _ => enumDeclaration_t E hn
  | .enumBody, _ => enumBody_t E hn
  | .enumConstant, _ => enumConstant_t E hn
  | .dmlExpressionVariant, _ => dmlExpressionVariant_t E hn
  | .dmlSecurityMode, _ => dmlSecurityMode_t E hn
  | .dmlTypeVariant, _ => dmlTypeVariant_t E hn
  | .arrayAccess, _ => arrayAccess_t E hn
  | .arrayCreationExpression, _ => arrayCreationExpression_t E hn
  | .dimensions, _ => dimensions_t E hn
  | .dimensionsExpr, _ => dimensionsExpr_t E hn
  | .returnStatement, _ => returnStatement_t E hn
  | .ternaryExpression, _ => ternaryExpression_t E hn
  | .tryStatement, _ => tryStatement_t E hn
  | .catchClause, h => by cases h
  | .finallyClause, h => by cases h
  | .staticInitializer, _ => staticInitializer_t E hn
  | .interfaceDeclaration, _ => interfaceDeclaration_t E hn
  | .extendsInterface, h => by cases h
  | .interfaceBody, _ => interfaceBody_t E hn
  | .interfaceMember, _ => interfaceMember_t E hn
  | .constantDeclaration, _ => constantDeclaration_t E hn
  | .accessorList, _ => accessorList_t E hn
  | .accessorDeclaration, _ => accessorDeclaration_t E hn
  | .castExpression, _ => castExpression_t E hn
  | .throwStatement, _ => throwStatement_t E hn
  | .breakStatement, _ => breakStatement_t E hn
  | .continueStatement, _ => continueStatement_t E hn
  | .switchExpression, _ => switchExpression_t E hn
  | .switchBlock, _ => switchBlock_t E hn
  | .switchRule, _ => switchRule_t E hn
  | .switchLabel, _ => switchLabel_t E hn
  | .whenSObjectType, _ => whenSObjectType_t E hn
  | .instanceOfExpression, _ => instanceOfExpression_t E hn
  | .versionExpression, _ => versionExpression_t E hn
  | .javaFieldAccess, _ => javaFieldAccess_t E hn
  | .javaType, _ => javaType_t E hn
  | .arrayType, _ => arrayType_t E hn
  | .triggerDeclaration, _ => triggerDeclaration_t E hn
  | .triggerEvent, _ => triggerEvent_t E hn
  | .triggerBody, _ => triggerBody_t E hn
  | .queryExpression, _ => queryExpression_t E hn
  | .soslQueryBody, _ => soslQueryBody_t E hn
  | .findClause, _ => findClause_t E hn
  | .inClause, _ => inClause_t E hn
  | .returningClause, _ => returningClause_t E hn
  | .sObjectReturn, _ => sObjectReturn_t E hn
  | .soqlQueryBody, _ => soqlQueryBody_t E hn
  | .fromClause, _ => fromClause_t E hn
  | .storageAlias, _ => storageAlias_t E hn
  | .limitClause, _ => limitClause_t E hn
  | .updateClause, _ => updateClause_t E hn
  | .boundApexExpression, _ => boundApexExpression_t E hn
  | .soslUsingClause, _ => soslUsingClause_t E hn
  | .usingSearch, _ => usingSearch_t E hn
  | .usingClause, _ => usingClause_t E hn
  | .usingClauseOption, _ => usingClauseOption_t E hn
  | .usingScopeClause, _ => usingScopeClause_t E hn
  | .usingLookupClause, _ => usingLookupClause_t E hn
  | .usingListviewClause, _ => usingListviewClause_t E hn
  | .usingLookupBindClause, _ => usingLookupBindClause_t E hn
  | .usingLookupBindExpression, _ => usingLookupBindExpression_t E hn
  | .whereClause, _ => whereClause_t E hn
  | .comparisonExpression, _ => comparisonExpression_t E hn
  | .comparableList, _ => comparableList_t E hn
  | .orderByClause, _ => orderByClause_t E hn
  | .orderExpression, _ => orderExpression_t E hn
  | .subQuery, _ => subQuery_t E hn
  | .mapCreationExpression, _ => mapCreationExpression_t E hn
  | .mapInitializer, _ => mapInitializer_t E hn
  | .mapKeyInitializer, _ => mapKeyInitializer_t E hn
  | .groupByClause, _ => groupByClause_t E hn
  | .havingClause, _ => havingClause_t E hn
  | .soslWithClause, _ => soslWithClause_t E hn
  | .soqlWithClause, _ => soqlWithClause_t E hn
  | .soqlWithTypeVariant, _ => soqlWithTypeVariant_t E hn
  | .soslWithType, _ => soslWithType_t E hn
  | .withDataCatExpression, _ => withDataCatExpression_t E hn
  | .withDataCatFilter, _ => withDataCatFilter_t E hn
  | .withDivisionExpression, _ => withDivisionExpression_t E hn
  | .withSnippetExpression, _ => withSnippetExpression_t E hn
  | .withNetworkExpression, _ => withNetworkExpression_t E hn
  | .withMetadataExpression, _ => withMetadataExpression_t E hn
  | .withSpellCorrectionExpression, _ => withSpellCorrectionExpression_t E hn
  | .withPriceBookExpression, _ => withPriceBookExpression_t E hn
  | .dottedIdentifier, _ => dottedIdentifier_t E hn
  | .valueNode, _ => valueNode_t E hn
  | .valueNodeLowerCase, _ => valueNodeLowerCase_t E hn
  | .valueNodeUpperCase, _ => valueNodeUpperCase_t E hn
  | .expressionStatement, _ => expressionStatement_t E hn
  | .safeNavigationOperator, _ => safeNavigationOperator_t E hn
  | .countExpression, _ => countExpression_t E hn
  | .andExpression, _ => andExpression_t E hn
  | .orExpression, _ => orExpression_t E hn
  | .notExpression, _ => notExpression_t E hn
  | .forClause, _ => forClause_t E hn
  | .allRowsClause, _ => allRowsClause_t E hn
  | .dmlType, _ => dmlType_t E hn
  | .rootMember, _ => rootMember_t E hn
  | .classMember, _ => classMember_t E hn
  | .unannotatedType, _ => unannotatedType_t E hn
  | .simpleType, _ => simpleType_t E hn
  | .variableInitializer, _ => variableInitializer_t E hn
  | .expression, _ => expression_t E hn
  | .primaryExpression, _ => primaryExpression_t E hn
  | .classLiteral, _ => classLiteral_t E hn
  | .literal, _ => literal_t E hn
  | .modifierKind, _ => modifierKind_t E hn
  | .statement, _ => statement_t E hn
  | .type, _ => type_t E hn
  | .annotationArgumentList, h => by cases h
  | .triggerEventVariant, _ => triggerEventVariant_t E hn
  | .selectClauseVariant, _ => selectClauseVariant_t E hn
  | .selectableExpression, _ => selectableExpression_t E hn
  | .fieldsExpression, _ => fieldsExpression_t E hn
  | .aliasExpression, _ => aliasExpression_t E hn
  | .fieldIdentifierVariant, _ => fieldIdentifierVariant_t E hn
  | .storageVariant, _ => storageVariant_t E hn
  | .storageIdentifierVariant, _ => storageIdentifierVariant_t E hn
  | .limitValue, _ => limitValue_t E hn
  | .booleanExpression, _ => booleanExpression_t E hn
  | .valueExpression, _ => valueExpression_t E hn
  | .geoLocationTypeVariant, _ => geoLocationTypeVariant_t E hn
  | .comparison, h => by cases h
  | .soqlLiteral, _ => soqlLiteral_t E hn
  | .dateLiteralWithParam, _ => dateLiteralWithParam_t E hn
  | .setValue, _ => setValue_t E hn
  | .comparableListValue, _ => comparableListValue_t E hn
  | .offsetClause, _ => offsetClause_t E hn
  | .functionExpressionVariant, _ => functionExpressionVariant_t E hn

/-- One call of a constructor whose program begins with a blank. -/
theorem led_t (E : Env root rec) {n : Loc} (hn : In root n) (c : Cls) (hc : ledCls c = true) : P (Prog.step cfg rec c n) Led := by
  cases c with
  | catchClause => exact catchClause_t E hn
  | finallyClause => exact finallyClause_t E hn
  | extendsInterface => exact extendsInterface_t E hn
  | comparison => exact comparison_t E hn
  | _ => cases hc

/-- Constructors of any recursion depth. -/
theorem new_env (h : TightTree root) : ∀ fuel, Env root (new cfg fuel)
  | 0 => ⟨h, fun _ _ _ _ => P_err, fun _ _ _ _ => P_err, fun _ _ => P_err⟩
  | fuel + 1 =>
    have E := new_env h fuel
    ⟨h, fun c _ hl hc => step_t E hl c hc, fun c _ hl hc => led_t E hl c hc, fun _ hl => annotationArgumentList_t E hl⟩

/-- The program of the whole tree. -/
theorem root_run (h : TightTree root) {fuel : Nat} {p : Prog} (hp : new cfg fuel .root ⟨root, []⟩ = .ok p) :
    run .N (syms p) ≠ .bad := by
  cases fuel with
  | zero => cases hp
  | succ fuel =>
    have := P_get (Q := fun p => T .N [p] .B) (root_t (cfg := cfg) (new_env h fuel) .root) hp
    exact T_run this

end Afmt.Trail
