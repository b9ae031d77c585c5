import Verif.Notes.Pass1
import Verif.Notes.Pass2
import Verif.Notes.Pass3
import Verif.Notes.Pass4

/-!
# Line breaks of the programs of all constructors, with comments between members
-/

namespace Afmt.Notes
open Afmt.Prog
open Afmt.Lines (P P_get P_mono)

variable [K : Src] {root : Node} {rec : Rec} {cfg : Cfg}

/-- The classes of the bodies. -/
def bodyCls : Cls → Bool
  | .classBody | .block | .interfaceBody | .constructorBody => true
  | _ => false

/-- The classes that pass a body on. -/
def passCls : Cls → Bool
  | .statement | .rootMember | .classMember | .forInitOption | .comparison => true
  | _ => false

theorem plainEnd {c : Cls} {n : Loc} {r : R Prog} (h : endOf c = .I) (h' : P r (Kid (pst n.id))) : P r (Kid (up (endOf c) (pst n.id))) := by
  rw [h, up_I]; exact h'

/-- One constructor call. -/
theorem step_t {n : Loc} (hn : In root n) {x : St} (E : Env root n x rec) : ∀ c, callable c = true →
    (passCls c = false → x = if bodyCls c then .P else .I) → (hush c = true → Quiet n.id) →
    P (Prog.step cfg rec c n) (Kid (up (endOf c) (pst n.id)))
  | .functionExpression, _, hx, _ => by obtain rfl := hx rfl; exact plainEnd rfl (functionExpression_t E hn)
  | .fieldIdentifier, _, hx, _ => by obtain rfl := hx rfl; exact plainEnd rfl (fieldIdentifier_t E hn)
  | .geoLocationType, _, hx, _ => by obtain rfl := hx rfl; exact plainEnd rfl (geoLocationType_t E hn)
  | .selectClause, _, hx, _ => by obtain rfl := hx rfl; exact plainEnd rfl (selectClause_t E hn)
  | .storageIdentifier, _, hx, _ => by obtain rfl := hx rfl; exact plainEnd rfl (storageIdentifier_t E hn)
  | .soqlWithType, _, hx, _ => by obtain rfl := hx rfl; exact plainEnd rfl (soqlWithType_t E hn)
  | .updateExpression, _, hx, _ => by obtain rfl := hx rfl; exact plainEnd rfl (updateExpression_t E hn)
  | .dmlExpression, _, hx, _ => by obtain rfl := hx rfl; exact plainEnd rfl (dmlExpression_t E hn)
  | .conditionExpression, _, _, _ => P_mono (conditionExpression_t E hn) (fun _ h => Kid_le h (up_left _ _))
  | .root, h, _, _ => by cases h
  | .classDeclaration, _, hx, _ => by obtain rfl := hx rfl; exact plainEnd rfl (classDeclaration_t E hn)
  | .methodDeclaration, _, hx, _ => by obtain rfl := hx rfl; exact plainEnd rfl (methodDeclaration_t E hn)
  | .formalParameters, _, hx, _ => by obtain rfl := hx rfl; exact plainEnd rfl (formalParameters_t E hn)
  | .formalParameter, _, hx, _ => by obtain rfl := hx rfl; exact plainEnd rfl (formalParameter_t E hn)
  | .superClass, _, hx, _ => by obtain rfl := hx rfl; exact plainEnd rfl (superClass_t E hn)
  | .modifiers, _, hx, hq => by obtain rfl := hx rfl; exact P_mono (modifiers_t E hn (hq rfl)) (fun _ h => Kid_le h (up_left _ _))
  | .modifier, _, hx, _ => by obtain rfl := hx rfl; exact plainEnd rfl (modifier_t E hn)
  | .annotation, _, hx, hq => by obtain rfl := hx rfl; exact P_mono (annotation_t E hn (hq rfl)) (fun _ h => Kid_le h (up_left _ _))
  | .annotationKeyValue, _, hx, _ => by obtain rfl := hx rfl; exact plainEnd rfl (annotationKeyValue_t E hn)
  | .classBody, _, hx, _ => by obtain rfl := hx rfl; exact plainEnd rfl (classBody_t E hn)
  | .fieldDeclaration, _, hx, _ => by obtain rfl := hx rfl; exact plainEnd rfl (fieldDeclaration_t E hn)
  | .arrayInitializer, _, hx, _ => by obtain rfl := hx rfl; exact plainEnd rfl (arrayInitializer_t E hn)
  | .assignmentExpression, _, hx, _ => by obtain rfl := hx rfl; exact plainEnd rfl (assignmentExpression_t E hn)
  | .assignmentLeft, _, hx, _ => by obtain rfl := hx rfl; exact plainEnd rfl (assignmentLeft_t E hn)
  | .boolType, _, hx, _ => by obtain rfl := hx rfl; exact plainEnd rfl (boolType_t E hn)
  | .block, _, hx, _ => by obtain rfl := hx rfl; exact plainEnd rfl (block_t E hn)
  | .interface, _, hx, _ => by obtain rfl := hx rfl; exact plainEnd rfl (interface_t E hn)
  | .typeList, _, hx, _ => by obtain rfl := hx rfl; exact plainEnd rfl (typeList_t E hn)
  | .objectExpression, _, hx, _ => by obtain rfl := hx rfl; exact plainEnd rfl (objectExpression_t E hn)
  | .methodInvocation, _, hx, _ => by obtain rfl := hx rfl; exact plainEnd rfl (methodInvocation_t E hn)
  | .typeArguments, _, hx, _ => by obtain rfl := hx rfl; exact plainEnd rfl (typeArguments_t E hn)
  | .argumentList, _, hx, _ => by obtain rfl := hx rfl; exact plainEnd rfl (argumentList_t E hn)
  | .super, _, hx, _ => by obtain rfl := hx rfl; exact plainEnd rfl (super_t E hn)
  | .this, _, hx, _ => by obtain rfl := hx rfl; exact plainEnd rfl (this_t E hn)
  | .binaryExpression, _, hx, _ => by obtain rfl := hx rfl; exact plainEnd rfl (binaryExpression_t E hn)
  | .localVariableDeclaration, _, hx, _ => by obtain rfl := hx rfl; exact plainEnd rfl (localVariableDeclaration_t E hn)
  | .variableDeclarator, _, hx, _ => by obtain rfl := hx rfl; exact plainEnd rfl (variableDeclarator_t E hn)
  | .genericType, _, hx, _ => by obtain rfl := hx rfl; exact plainEnd rfl (genericType_t E hn)
  | .ifStatement, _, hx, _ => by obtain rfl := hx rfl; exact plainEnd rfl (ifStatement_t E hn)
  | .parenthesizedExpression, _, hx, _ => by obtain rfl := hx rfl; exact plainEnd rfl (parenthesizedExpression_t E hn)
  | .forInitOption, _, _, _ => plainEnd rfl (forInitOption_t E hn)
  | .forStatement, _, hx, _ => by obtain rfl := hx rfl; exact plainEnd rfl (forStatement_t E hn)
  | .enhancedForStatement, _, hx, _ => by obtain rfl := hx rfl; exact plainEnd rfl (enhancedForStatement_t E hn)
  | .updateExpressionVariant, _, hx, _ => by obtain rfl := hx rfl; exact plainEnd rfl (updateExpressionVariant_t E hn)
  | .scopedTypeIdentifier, _, hx, _ => by obtain rfl := hx rfl; exact plainEnd rfl (scopedTypeIdentifier_t E hn)
  | .constructorDeclaration, _, hx, _ => by obtain rfl := hx rfl; exact plainEnd rfl (constructorDeclaration_t E hn)
  | .constructorBody, _, hx, _ => by obtain rfl := hx rfl; exact plainEnd rfl (constructorBody_t E hn)
  | .constructInvocation, _, hx, _ => by obtain rfl := hx rfl; exact plainEnd rfl (constructInvocation_t E hn)
  | .typeParameters, _, hx, _ => by obtain rfl := hx rfl; exact plainEnd rfl (typeParameters_t E hn)
  | .typeParameter, _, hx, _ => by obtain rfl := hx rfl; exact plainEnd rfl (typeParameter_t E hn)
  | .objectCreationExpression, _, hx, _ => by obtain rfl := hx rfl; exact plainEnd rfl (objectCreationExpression_t E hn)
  | .runAsStatement, _, hx, _ => by obtain rfl := hx rfl; exact plainEnd rfl (runAsStatement_t E hn)
  | .doStatement, _, hx, _ => by obtain rfl := hx rfl; exact plainEnd rfl (doStatement_t E hn)
  | .whileStatement, _, hx, _ => by obtain rfl := hx rfl; exact plainEnd rfl (whileStatement_t E hn)
  | .unaryExpression, _, hx, _ => by obtain rfl := hx rfl; exact plainEnd rfl (unaryExpression_t E hn)
  | .fieldAccess, _, hx, _ => by obtain rfl := hx rfl; exact plainEnd rfl (fieldAccess_t E hn)
  | .fieldOption, _, hx, _ => by obtain rfl := hx rfl; exact plainEnd rfl (fieldOption_t E hn)
  | .enumDeclaration, _, hx, _ => by obtain rfl := hx rfl; exact plainEnd rfl (enumDeclaration_t E hn)
  | .enumBody, _, hx, _ => by obtain rfl := hx rfl; exact plainEnd rfl (enumBody_t E hn)
  | .enumConstant, _, hx, _ => by obtain rfl := hx rfl; exact plainEnd rfl (enumConstant_t E hn)
  | .dmlExpressionVariant, _, hx, _ => by obtain rfl := hx rfl; exact plainEnd rfl (dmlExpressionVariant_t E hn)
  | .dmlSecurityMode, _, hx, _ => by obtain rfl := hx rfl; exact plainEnd rfl (dmlSecurityMode_t E hn)
  | .dmlTypeVariant, _, hx, _ => by obtain rfl := hx rfl; exact plainEnd rfl (dmlTypeVariant_t E hn)
  | .arrayAccess, _, hx, _ => by obtain rfl := hx rfl; exact plainEnd rfl (arrayAccess_t E hn)
  | .arrayCreationExpression, _, hx, _ => by obtain rfl := hx rfl; exact plainEnd rfl (arrayCreationExpression_t E hn)
  | .dimensions, _, hx, _ => by obtain rfl := hx rfl; exact plainEnd rfl (dimensions_t E hn)
  | .dimensionsExpr, _, hx, _ => by obtain rfl := hx rfl; exact plainEnd rfl (dimensionsExpr_t E hn)
  | .returnStatement, _, hx, _ => by obtain rfl := hx rfl; exact plainEnd rfl (returnStatement_t E hn)
  | .ternaryExpression, _, hx, _ => by obtain rfl := hx rfl; exact plainEnd rfl (ternaryExpression_t E hn)
  | .tryStatement, _, hx, _ => by obtain rfl := hx rfl; exact plainEnd rfl (tryStatement_t E hn)
  | .catchClause, _, hx, _ => by obtain rfl := hx rfl; exact plainEnd rfl (catchClause_t E hn)
  | .finallyClause, _, hx, _ => by obtain rfl := hx rfl; exact plainEnd rfl (finallyClause_t E hn)
  | .staticInitializer, _, hx, _ => by obtain rfl := hx rfl; exact plainEnd rfl (staticInitializer_t E hn)
  | .interfaceDeclaration, _, hx, _ => by obtain rfl := hx rfl; exact plainEnd rfl (interfaceDeclaration_t E hn)
  | .extendsInterface, _, hx, _ => by obtain rfl := hx rfl; exact plainEnd rfl (extendsInterface_t E hn)
  | .interfaceBody, _, hx, _ => by obtain rfl := hx rfl; exact plainEnd rfl (interfaceBody_t E hn)
  | .interfaceMember, _, hx, _ => by obtain rfl := hx rfl; exact plainEnd rfl (interfaceMember_t E hn)
  | .constantDeclaration, _, hx, _ => by obtain rfl := hx rfl; exact plainEnd rfl (constantDeclaration_t E hn)
  | .accessorList, _, hx, _ => by obtain rfl := hx rfl; exact plainEnd rfl (accessorList_t E hn)
  | .accessorDeclaration, _, hx, _ => by obtain rfl := hx rfl; exact plainEnd rfl (accessorDeclaration_t E hn)
  | .castExpression, _, hx, _ => by obtain rfl := hx rfl; exact plainEnd rfl (castExpression_t E hn)
  | .throwStatement, _, hx, _ => by obtain rfl := hx rfl; exact plainEnd rfl (throwStatement_t E hn)
  | .breakStatement, _, hx, _ => by obtain rfl := hx rfl; exact plainEnd rfl (breakStatement_t E hn)
  | .continueStatement, _, hx, _ => by obtain rfl := hx rfl; exact plainEnd rfl (continueStatement_t E hn)
  | .switchExpression, _, hx, _ => by obtain rfl := hx rfl; exact plainEnd rfl (switchExpression_t E hn)
  | .switchBlock, _, hx, _ => by obtain rfl := hx rfl; exact plainEnd rfl (switchBlock_t E hn)
  | .switchRule, _, hx, _ => by obtain rfl := hx rfl; exact plainEnd rfl (switchRule_t E hn)
  | .switchLabel, _, hx, _ => by obtain rfl := hx rfl; exact plainEnd rfl (switchLabel_t E hn)
  | .whenSObjectType, _, hx, _ => by obtain rfl := hx rfl; exact plainEnd rfl (whenSObjectType_t E hn)
  | .instanceOfExpression, _, hx, _ => by obtain rfl := hx rfl; exact plainEnd rfl (instanceOfExpression_t E hn)
  | .versionExpression, _, hx, _ => by obtain rfl := hx rfl; exact plainEnd rfl (versionExpression_t E hn)
  | .javaFieldAccess, _, hx, _ => by obtain rfl := hx rfl; exact plainEnd rfl (javaFieldAccess_t E hn)
  | .javaType, _, hx, _ => by obtain rfl := hx rfl; exact plainEnd rfl (javaType_t E hn)
  | .arrayType, _, hx, _ => by obtain rfl := hx rfl; exact plainEnd rfl (arrayType_t E hn)
  | .triggerDeclaration, _, hx, _ => by obtain rfl := hx rfl; exact plainEnd rfl (triggerDeclaration_t E hn)
  | .triggerEvent, _, hx, _ => by obtain rfl := hx rfl; exact plainEnd rfl (triggerEvent_t E hn)
  | .triggerBody, _, hx, _ => by obtain rfl := hx rfl; exact plainEnd rfl (triggerBody_t E hn)
  | .queryExpression, _, hx, _ => by obtain rfl := hx rfl; exact plainEnd rfl (queryExpression_t E hn)
  | .soslQueryBody, _, hx, _ => by obtain rfl := hx rfl; exact plainEnd rfl (soslQueryBody_t E hn)
  | .findClause, _, hx, _ => by obtain rfl := hx rfl; exact plainEnd rfl (findClause_t E hn)
  | .inClause, _, hx, _ => by obtain rfl := hx rfl; exact plainEnd rfl (inClause_t E hn)
  | .returningClause, _, hx, _ => by obtain rfl := hx rfl; exact plainEnd rfl (returningClause_t E hn)
  | .sObjectReturn, _, hx, _ => by obtain rfl := hx rfl; exact plainEnd rfl (sObjectReturn_t E hn)
  | .soqlQueryBody, _, hx, _ => by obtain rfl := hx rfl; exact plainEnd rfl (soqlQueryBody_t E hn)
  | .fromClause, _, hx, _ => by obtain rfl := hx rfl; exact plainEnd rfl (fromClause_t E hn)
  | .storageAlias, _, hx, _ => by obtain rfl := hx rfl; exact plainEnd rfl (storageAlias_t E hn)
  | .limitClause, _, hx, _ => by obtain rfl := hx rfl; exact plainEnd rfl (limitClause_t E hn)
  | .updateClause, _, hx, _ => by obtain rfl := hx rfl; exact plainEnd rfl (updateClause_t E hn)
  | .boundApexExpression, _, hx, _ => by obtain rfl := hx rfl; exact plainEnd rfl (boundApexExpression_t E hn)
  | .soslUsingClause, _, hx, _ => by obtain rfl := hx rfl; exact plainEnd rfl (soslUsingClause_t E hn)
  | .usingSearch, _, hx, _ => by obtain rfl := hx rfl; exact plainEnd rfl (usingSearch_t E hn)
  | .usingClause, _, hx, _ => by obtain rfl := hx rfl; exact plainEnd rfl (usingClause_t E hn)
  | .usingClauseOption, _, hx, _ => by obtain rfl := hx rfl; exact plainEnd rfl (usingClauseOption_t E hn)
  | .usingScopeClause, _, hx, _ => by obtain rfl := hx rfl; exact plainEnd rfl (usingScopeClause_t E hn)
  | .usingLookupClause, _, hx, _ => by obtain rfl := hx rfl; exact plainEnd rfl (usingLookupClause_t E hn)
  | .usingListviewClause, _, hx, _ => by obtain rfl := hx rfl; exact plainEnd rfl (usingListviewClause_t E hn)
  | .usingLookupBindClause, _, hx, _ => by obtain rfl := hx rfl; exact plainEnd rfl (usingLookupBindClause_t E hn)
  | .usingLookupBindExpression, _, hx, _ => by obtain rfl := hx rfl; exact plainEnd rfl (usingLookupBindExpression_t E hn)
  | .whereClause, _, hx, _ => by obtain rfl := hx rfl; exact plainEnd rfl (whereClause_t E hn)
  | .comparisonExpression, _, hx, hq => by obtain rfl := hx rfl; exact plainEnd rfl (comparisonExpression_t E hn (hq rfl))
  | .comparableList, _, hx, _ => by obtain rfl := hx rfl; exact plainEnd rfl (comparableList_t E hn)
  | .orderByClause, _, hx, _ => by obtain rfl := hx rfl; exact plainEnd rfl (orderByClause_t E hn)
  | .orderExpression, _, hx, _ => by obtain rfl := hx rfl; exact plainEnd rfl (orderExpression_t E hn)
  | .subQuery, _, hx, _ => by obtain rfl := hx rfl; exact plainEnd rfl (subQuery_t E hn)
  | .mapCreationExpression, _, hx, _ => by obtain rfl := hx rfl; exact plainEnd rfl (mapCreationExpression_t E hn)
  | .mapInitializer, _, hx, _ => by obtain rfl := hx rfl; exact plainEnd rfl (mapInitializer_t E hn)
  | .mapKeyInitializer, _, hx, _ => by obtain rfl := hx rfl; exact plainEnd rfl (mapKeyInitializer_t E hn)
  | .groupByClause, _, hx, _ => by obtain rfl := hx rfl; exact plainEnd rfl (groupByClause_t E hn)
  | .havingClause, _, hx, _ => by obtain rfl := hx rfl; exact plainEnd rfl (havingClause_t E hn)
  | .soslWithClause, _, hx, _ => by obtain rfl := hx rfl; exact plainEnd rfl (soslWithClause_t E hn)
  | .soqlWithClause, _, hx, _ => by obtain rfl := hx rfl; exact plainEnd rfl (soqlWithClause_t E hn)
  | .soqlWithTypeVariant, _, hx, _ => by obtain rfl := hx rfl; exact plainEnd rfl (soqlWithTypeVariant_t E hn)
  | .soslWithType, _, hx, _ => by obtain rfl := hx rfl; exact plainEnd rfl (soslWithType_t E hn)
  | .withDataCatExpression, _, hx, _ => by obtain rfl := hx rfl; exact plainEnd rfl (withDataCatExpression_t E hn)
  | .withDataCatFilter, _, hx, _ => by obtain rfl := hx rfl; exact plainEnd rfl (withDataCatFilter_t E hn)
  | .withDivisionExpression, _, hx, _ => by obtain rfl := hx rfl; exact plainEnd rfl (withDivisionExpression_t E hn)
  | .withSnippetExpression, _, hx, _ => by obtain rfl := hx rfl; exact plainEnd rfl (withSnippetExpression_t E hn)
  | .withNetworkExpression, _, hx, hq => by obtain rfl := hx rfl; exact plainEnd rfl (withNetworkExpression_t E hn (hq rfl))
  | .withMetadataExpression, _, hx, _ => by obtain rfl := hx rfl; exact plainEnd rfl (withMetadataExpression_t E hn)
  | .withSpellCorrectionExpression, _, hx, _ => by obtain rfl := hx rfl; exact plainEnd rfl (withSpellCorrectionExpression_t E hn)
  | .withPriceBookExpression, _, hx, _ => by obtain rfl := hx rfl; exact plainEnd rfl (withPriceBookExpression_t E hn)
  | .dottedIdentifier, _, hx, _ => by obtain rfl := hx rfl; exact plainEnd rfl (dottedIdentifier_t E hn)
  | .valueNode, _, hx, _ => by obtain rfl := hx rfl; exact plainEnd rfl (valueNode_t E hn)
  | .valueNodeLowerCase, _, hx, _ => by obtain rfl := hx rfl; exact plainEnd rfl (valueNodeLowerCase_t E hn)
  | .valueNodeUpperCase, _, hx, _ => by obtain rfl := hx rfl; exact plainEnd rfl (valueNodeUpperCase_t E hn)
  | .expressionStatement, _, hx, _ => by obtain rfl := hx rfl; exact plainEnd rfl (expressionStatement_t E hn)
  | .safeNavigationOperator, _, hx, _ => by obtain rfl := hx rfl; exact plainEnd rfl (safeNavigationOperator_t E hn)
  | .countExpression, _, hx, _ => by obtain rfl := hx rfl; exact plainEnd rfl (countExpression_t E hn)
  | .andExpression, _, hx, _ => by obtain rfl := hx rfl; exact plainEnd rfl (andExpression_t E hn)
  | .orExpression, _, hx, _ => by obtain rfl := hx rfl; exact plainEnd rfl (orExpression_t E hn)
  | .notExpression, _, hx, _ => by obtain rfl := hx rfl; exact plainEnd rfl (notExpression_t E hn)
  | .forClause, _, hx, _ => by obtain rfl := hx rfl; exact plainEnd rfl (forClause_t E hn)
  | .allRowsClause, _, hx, _ => by obtain rfl := hx rfl; exact plainEnd rfl (allRowsClause_t E hn)
  | .dmlType, _, hx, _ => by obtain rfl := hx rfl; exact plainEnd rfl (dmlType_t E hn)
  | .rootMember, _, _, _ => plainEnd rfl (rootMember_t E hn)
  | .classMember, _, _, _ => plainEnd rfl (classMember_t E hn)
  | .unannotatedType, _, hx, _ => by obtain rfl := hx rfl; exact plainEnd rfl (unannotatedType_t E hn)
  | .simpleType, _, hx, _ => by obtain rfl := hx rfl; exact plainEnd rfl (simpleType_t E hn)
  | .variableInitializer, _, hx, _ => by obtain rfl := hx rfl; exact plainEnd rfl (variableInitializer_t E hn)
  | .expression, _, hx, _ => by obtain rfl := hx rfl; exact plainEnd rfl (expression_t E hn)
  | .primaryExpression, _, hx, _ => by obtain rfl := hx rfl; exact plainEnd rfl (primaryExpression_t E hn)
  | .classLiteral, _, hx, _ => by obtain rfl := hx rfl; exact plainEnd rfl (classLiteral_t E hn)
  | .literal, _, hx, _ => by obtain rfl := hx rfl; exact plainEnd rfl (literal_t E hn)
  | .modifierKind, _, hx, _ => by obtain rfl := hx rfl; exact plainEnd rfl (modifierKind_t E hn)
  | .statement, _, _, _ => plainEnd rfl (statement_t E hn)
  | .type, _, hx, _ => by obtain rfl := hx rfl; exact plainEnd rfl (type_t E hn)
  | .annotationArgumentList, h, _, _ => by cases h
  | .triggerEventVariant, _, hx, _ => by obtain rfl := hx rfl; exact plainEnd rfl (triggerEventVariant_t E hn)
  | .selectClauseVariant, _, hx, _ => by obtain rfl := hx rfl; exact plainEnd rfl (selectClauseVariant_t E hn)
  | .selectableExpression, _, hx, _ => by obtain rfl := hx rfl; exact plainEnd rfl (selectableExpression_t E hn)
  | .fieldsExpression, _, hx, _ => by obtain rfl := hx rfl; exact plainEnd rfl (fieldsExpression_t E hn)
  | .aliasExpression, _, hx, _ => by obtain rfl := hx rfl; exact plainEnd rfl (aliasExpression_t E hn)
  | .fieldIdentifierVariant, _, hx, _ => by obtain rfl := hx rfl; exact plainEnd rfl (fieldIdentifierVariant_t E hn)
  | .storageVariant, _, hx, _ => by obtain rfl := hx rfl; exact plainEnd rfl (storageVariant_t E hn)
  | .storageIdentifierVariant, _, hx, _ => by obtain rfl := hx rfl; exact plainEnd rfl (storageIdentifierVariant_t E hn)
  | .limitValue, _, hx, _ => by obtain rfl := hx rfl; exact plainEnd rfl (limitValue_t E hn)
  | .booleanExpression, _, hx, _ => by obtain rfl := hx rfl; exact plainEnd rfl (booleanExpression_t E hn)
  | .valueExpression, _, hx, _ => by obtain rfl := hx rfl; exact plainEnd rfl (valueExpression_t E hn)
  | .geoLocationTypeVariant, _, hx, _ => by obtain rfl := hx rfl; exact plainEnd rfl (geoLocationTypeVariant_t E hn)
  | .comparison, _, _, _ => plainEnd rfl (comparison_t E hn)
  | .soqlLiteral, _, hx, _ => by obtain rfl := hx rfl; exact plainEnd rfl (soqlLiteral_t E hn)
  | .dateLiteralWithParam, _, hx, _ => by obtain rfl := hx rfl; exact plainEnd rfl (dateLiteralWithParam_t E hn)
  | .setValue, _, hx, _ => by obtain rfl := hx rfl; exact plainEnd rfl (setValue_t E hn)
  | .comparableListValue, _, hx, _ => by obtain rfl := hx rfl; exact plainEnd rfl (comparableListValue_t E hn)
  | .offsetClause, _, hx, _ => by obtain rfl := hx rfl; exact plainEnd rfl (offsetClause_t E hn)
  | .functionExpressionVariant, _, hx, _ => by obtain rfl := hx rfl; exact plainEnd rfl (functionExpressionVariant_t E hn)

end Afmt.Notes
