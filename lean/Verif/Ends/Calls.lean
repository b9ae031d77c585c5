import Verif.Notes.Calls
import Verif.Ends.Pass1
import Verif.Ends.Pass2
import Verif.Ends.Pass3
import Verif.Ends.Pass4

/-!
# Ends of lines of the programs of all constructors, with comments between members
-/

namespace Afmt.Ends
open Afmt.Prog
open Afmt.Lines (P P_get P_mono callable)
open Afmt.Notes (Quiet hush bodyCls passCls)
open Afmt.Trail (Gate plainly ledCls)

variable [Gate] [K : Fair] {root : Node} {rec : Rec} {cfg : Cfg}

theorem plainEnd {c : Cls} {n : Loc} {r : R Prog} (h : endOf c = .N) (h' : P r (Kid (pst n.id))) : P r (Kid (up (endOf c) (pst n.id))) := by
  rw [h, up_N]; exact h'

/-- One constructor call. -/
theorem step_t {n : Loc} (hn : In root n) {x : St} (E : Env root n x rec) : ∀ c, (passCls c = false → n.extra = false) → plainly c = true →
    (passCls c = false → x = if bodyCls c then .Q else .N) → (hush c = true → Quiet n.id) →
    P (Prog.step cfg rec c n) (Kid (up (endOf c) (pst n.id)))
  | .functionExpression, _, _, hx, _ => by obtain rfl := hx rfl; exact plainEnd rfl (functionExpression_t E hn)
  | .fieldIdentifier, _, _, hx, _ => by obtain rfl := hx rfl; exact plainEnd rfl (fieldIdentifier_t E hn)
  | .geoLocationType, _, _, hx, _ => by obtain rfl := hx rfl; exact plainEnd rfl (geoLocationType_t E hn)
  | .selectClause, _, _, hx, _ => by obtain rfl := hx rfl; exact plainEnd rfl (selectClause_t E hn)
  | .storageIdentifier, _, _, hx, _ => by obtain rfl := hx rfl; exact plainEnd rfl (storageIdentifier_t E hn)
  | .soqlWithType, _, _, hx, _ => by obtain rfl := hx rfl; exact plainEnd rfl (soqlWithType_t E hn)
  | .updateExpression, _, _, hx, _ => by obtain rfl := hx rfl; exact plainEnd rfl (updateExpression_t E hn)
  | .dmlExpression, _, _, hx, _ => by obtain rfl := hx rfl; exact plainEnd rfl (dmlExpression_t E hn)
  | .conditionExpression, _, _, _, _ => P_mono (conditionExpression_t E hn) (fun _ h => Kid_le h (up_left _ _))
  | .root, _, h, _, _ => by cases h
  | .classDeclaration, _, _, hx, _ => by obtain rfl := hx rfl; exact plainEnd rfl (classDeclaration_t E hn)
  | .methodDeclaration, _, _, hx, _ => by obtain rfl := hx rfl; exact plainEnd rfl (methodDeclaration_t E hn)
  | .formalParameters, _, _, hx, _ => by obtain rfl := hx rfl; exact plainEnd rfl (formalParameters_t E hn)
  | .formalParameter, _, _, hx, _ => by obtain rfl := hx rfl; exact plainEnd rfl (formalParameter_t E hn)
  | .superClass, _, _, hx, _ => by obtain rfl := hx rfl; exact plainEnd rfl (superClass_t E hn)
  | .modifiers, _, _, hx, hq => by obtain rfl := hx rfl; exact P_mono (modifiers_t E hn (hq rfl)) (fun _ h => Kid_le h (up_left _ _))
  | .modifier, _, _, hx, _ => by obtain rfl := hx rfl; exact plainEnd rfl (modifier_t E hn)
  | .annotation, _, _, hx, hq => by obtain rfl := hx rfl; exact P_mono (annotation_t E hn (hq rfl)) (fun _ h => Kid_le h (up_left _ _))
  | .annotationKeyValue, _, _, hx, _ => by obtain rfl := hx rfl; exact plainEnd rfl (annotationKeyValue_t E hn)
  | .classBody, _, _, hx, _ => by obtain rfl := hx rfl; exact plainEnd rfl (classBody_t E hn)
  | .fieldDeclaration, _, _, hx, _ => by obtain rfl := hx rfl; exact plainEnd rfl (fieldDeclaration_t E hn)
  | .arrayInitializer, _, _, hx, _ => by obtain rfl := hx rfl; exact plainEnd rfl (arrayInitializer_t E hn)
  | .assignmentExpression, _, _, hx, _ => by obtain rfl := hx rfl; exact plainEnd rfl (assignmentExpression_t E hn)
  | .assignmentLeft, _, _, hx, _ => by obtain rfl := hx rfl; exact plainEnd rfl (assignmentLeft_t E hn)
  | .boolType, _, _, hx, _ => by obtain rfl := hx rfl; exact plainEnd rfl (boolType_t E hn)
  | .block, _, _, hx, _ => by obtain rfl := hx rfl; exact plainEnd rfl (block_t E hn)
  | .interface, _, _, hx, _ => by obtain rfl := hx rfl; exact plainEnd rfl (interface_t E hn)
  | .typeList, _, _, hx, _ => by obtain rfl := hx rfl; exact plainEnd rfl (typeList_t E hn)
  | .objectExpression, _, _, hx, _ => by obtain rfl := hx rfl; exact plainEnd rfl (objectExpression_t E hn)
  | .methodInvocation, _, _, hx, _ => by obtain rfl := hx rfl; exact plainEnd rfl (methodInvocation_t E hn)
  | .typeArguments, _, _, hx, _ => by obtain rfl := hx rfl; exact plainEnd rfl (typeArguments_t E hn)
  | .argumentList, _, _, hx, _ => by obtain rfl := hx rfl; exact plainEnd rfl (argumentList_t E hn)
  | .super, _, _, hx, _ => by obtain rfl := hx rfl; exact plainEnd rfl (super_t E hn)
  | .this, _, _, hx, _ => by obtain rfl := hx rfl; exact plainEnd rfl (this_t E hn)
  | .binaryExpression, _, _, hx, _ => by obtain rfl := hx rfl; exact plainEnd rfl (binaryExpression_t E hn)
  | .localVariableDeclaration, _, _, hx, _ => by obtain rfl := hx rfl; exact plainEnd rfl (localVariableDeclaration_t E hn)
  | .variableDeclarator, _, _, hx, _ => by obtain rfl := hx rfl; exact plainEnd rfl (variableDeclarator_t E hn)
  | .genericType, _, _, hx, _ => by obtain rfl := hx rfl; exact plainEnd rfl (genericType_t E hn)
  | .ifStatement, _, _, hx, _ => by obtain rfl := hx rfl; exact plainEnd rfl (ifStatement_t E hn)
  | .parenthesizedExpression, _, _, hx, _ => by obtain rfl := hx rfl; exact plainEnd rfl (parenthesizedExpression_t E hn)
  | .forInitOption, _, _, _, _ => plainEnd rfl (forInitOption_t E hn)
  | .forStatement, _, _, hx, _ => by obtain rfl := hx rfl; exact plainEnd rfl (forStatement_t E hn)
  | .enhancedForStatement, _, _, hx, _ => by obtain rfl := hx rfl; exact plainEnd rfl (enhancedForStatement_t E hn)
  | .updateExpressionVariant, _, _, hx, _ => by obtain rfl := hx rfl; exact plainEnd rfl (updateExpressionVariant_t E hn)
  | .scopedTypeIdentifier, _, _, hx, _ => by obtain rfl := hx rfl; exact plainEnd rfl (scopedTypeIdentifier_t E hn)
  | .constructorDeclaration, _, _, hx, _ => by obtain rfl := hx rfl; exact plainEnd rfl (constructorDeclaration_t E hn)
  | .constructorBody, _, _, hx, _ => by obtain rfl := hx rfl; exact plainEnd rfl (constructorBody_t E hn)
  | .constructInvocation, _, _, hx, _ => by obtain rfl := hx rfl; exact plainEnd rfl (constructInvocation_t E hn)
  | .typeParameters, _, _, hx, _ => by obtain rfl := hx rfl; exact plainEnd rfl (typeParameters_t E hn)
  | .typeParameter, _, _, hx, _ => by obtain rfl := hx rfl; exact plainEnd rfl (typeParameter_t E hn)
  | .objectCreationExpression, _, _, hx, _ => by obtain rfl := hx rfl; exact plainEnd rfl (objectCreationExpression_t E hn)
  | .runAsStatement, _, _, hx, _ => by obtain rfl := hx rfl; exact plainEnd rfl (runAsStatement_t E hn)
  | .doStatement, _, _, hx, _ => by obtain rfl := hx rfl; exact plainEnd rfl (doStatement_t E hn)
  | .whileStatement, _, _, hx, _ => by obtain rfl := hx rfl; exact plainEnd rfl (whileStatement_t E hn)
  | .unaryExpression, _, _, hx, _ => by obtain rfl := hx rfl; exact plainEnd rfl (unaryExpression_t E hn)
  | .fieldAccess, _, _, hx, _ => by obtain rfl := hx rfl; exact plainEnd rfl (fieldAccess_t E hn)
  | .fieldOption, _, _, hx, _ => by obtain rfl := hx rfl; exact plainEnd rfl (fieldOption_t E hn)
  | .enumDeclaration, _, _, hx, _ => by obtain rfl := hx rfl; exact plainEnd rfl (enumDeclaration_t E hn)
  | .enumBody, _, _, hx, _ => by obtain rfl := hx rfl; exact plainEnd rfl (enumBody_t E hn)
  | .enumConstant, _, _, hx, _ => by obtain rfl := hx rfl; exact plainEnd rfl (enumConstant_t E hn)
  | .dmlExpressionVariant, _, _, hx, _ => by obtain rfl := hx rfl; exact plainEnd rfl (dmlExpressionVariant_t E hn)
  | .dmlSecurityMode, _, _, hx, _ => by obtain rfl := hx rfl; exact plainEnd rfl (dmlSecurityMode_t E hn)
  | .dmlTypeVariant, _, _, hx, _ => by obtain rfl := hx rfl; exact plainEnd rfl (dmlTypeVariant_t E hn)
  | .arrayAccess, _, _, hx, _ => by obtain rfl := hx rfl; exact plainEnd rfl (arrayAccess_t E hn)
  | .arrayCreationExpression, _, _, hx, _ => by obtain rfl := hx rfl; exact plainEnd rfl (arrayCreationExpression_t E hn)
  | .dimensions, _, _, hx, _ => by obtain rfl := hx rfl; exact plainEnd rfl (dimensions_t E hn)
  | .dimensionsExpr, _, _, hx, _ => by obtain rfl := hx rfl; exact plainEnd rfl (dimensionsExpr_t E hn)
  | .returnStatement, _, _, hx, _ => by obtain rfl := hx rfl; exact plainEnd rfl (returnStatement_t E hn)
  | .ternaryExpression, _, _, hx, _ => by obtain rfl := hx rfl; exact plainEnd rfl (ternaryExpression_t E hn)
  | .tryStatement, _, _, hx, _ => by obtain rfl := hx rfl; exact plainEnd rfl (tryStatement_t E hn)
  | .catchClause, _, h, _, _ => by cases h
  | .finallyClause, _, h, _, _ => by cases h
  | .staticInitializer, _, _, hx, _ => by obtain rfl := hx rfl; exact plainEnd rfl (staticInitializer_t E hn)
  | .interfaceDeclaration, _, _, hx, _ => by obtain rfl := hx rfl; exact plainEnd rfl (interfaceDeclaration_t E hn)
  | .extendsInterface, _, h, _, _ => by cases h
  | .interfaceBody, _, _, hx, _ => by obtain rfl := hx rfl; exact plainEnd rfl (interfaceBody_t E hn)
  | .interfaceMember, _, _, hx, _ => by obtain rfl := hx rfl; exact plainEnd rfl (interfaceMember_t E hn)
  | .constantDeclaration, _, _, hx, _ => by obtain rfl := hx rfl; exact plainEnd rfl (constantDeclaration_t E hn)
  | .accessorList, _, _, hx, _ => by obtain rfl := hx rfl; exact plainEnd rfl (accessorList_t E hn)
  | .accessorDeclaration, _, _, hx, _ => by obtain rfl := hx rfl; exact plainEnd rfl (accessorDeclaration_t E hn)
  | .castExpression, _, _, hx, _ => by obtain rfl := hx rfl; exact plainEnd rfl (castExpression_t E hn)
  | .throwStatement, _, _, hx, _ => by obtain rfl := hx rfl; exact plainEnd rfl (throwStatement_t E hn)
  | .breakStatement, _, _, hx, _ => by obtain rfl := hx rfl; exact plainEnd rfl (breakStatement_t E hn)
  | .continueStatement, _, _, hx, _ => by obtain rfl := hx rfl; exact plainEnd rfl (continueStatement_t E hn)
  | .switchExpression, _, _, hx, _ => by obtain rfl := hx rfl; exact plainEnd rfl (switchExpression_t E hn)
  | .switchBlock, _, _, hx, _ => by obtain rfl := hx rfl; exact plainEnd rfl (switchBlock_t E hn)
  | .switchRule, _, _, hx, _ => by obtain rfl := hx rfl; exact plainEnd rfl (switchRule_t E hn)
  | .switchLabel, _, _, hx, _ => by obtain rfl := hx rfl; exact plainEnd rfl (switchLabel_t E hn)
  | .whenSObjectType, _, _, hx, _ => by obtain rfl := hx rfl; exact plainEnd rfl (whenSObjectType_t E hn)
  | .instanceOfExpression, _, _, hx, _ => by obtain rfl := hx rfl; exact plainEnd rfl (instanceOfExpression_t E hn)
  | .versionExpression, _, _, hx, _ => by obtain rfl := hx rfl; exact plainEnd rfl (versionExpression_t E hn)
  | .javaFieldAccess, _, _, hx, _ => by obtain rfl := hx rfl; exact plainEnd rfl (javaFieldAccess_t E hn)
  | .javaType, _, _, hx, _ => by obtain rfl := hx rfl; exact plainEnd rfl (javaType_t E hn)
  | .arrayType, _, _, hx, _ => by obtain rfl := hx rfl; exact plainEnd rfl (arrayType_t E hn)
  | .triggerDeclaration, _, _, hx, _ => by obtain rfl := hx rfl; exact plainEnd rfl (triggerDeclaration_t E hn)
  | .triggerEvent, _, _, hx, _ => by obtain rfl := hx rfl; exact plainEnd rfl (triggerEvent_t E hn)
  | .triggerBody, _, _, hx, _ => by obtain rfl := hx rfl; exact plainEnd rfl (triggerBody_t E hn)
  | .queryExpression, _, _, hx, _ => by obtain rfl := hx rfl; exact plainEnd rfl (queryExpression_t E hn)
  | .soslQueryBody, _, _, hx, _ => by obtain rfl := hx rfl; exact plainEnd rfl (soslQueryBody_t E hn)
  | .findClause, _, _, hx, _ => by obtain rfl := hx rfl; exact plainEnd rfl (findClause_t E hn)
  | .inClause, _, _, hx, _ => by obtain rfl := hx rfl; exact plainEnd rfl (inClause_t E hn)
  | .returningClause, _, _, hx, _ => by obtain rfl := hx rfl; exact plainEnd rfl (returningClause_t E hn)
  | .sObjectReturn, _, _, hx, _ => by obtain rfl := hx rfl; exact plainEnd rfl (sObjectReturn_t E hn)
  | .soqlQueryBody, _, _, hx, _ => by obtain rfl := hx rfl; exact plainEnd rfl (soqlQueryBody_t E hn)
  | .fromClause, _, _, hx, _ => by obtain rfl := hx rfl; exact plainEnd rfl (fromClause_t E hn)
  | .storageAlias, _, _, hx, _ => by obtain rfl := hx rfl; exact plainEnd rfl (storageAlias_t E hn)
  | .limitClause, _, _, hx, _ => by obtain rfl := hx rfl; exact plainEnd rfl (limitClause_t E hn)
  | .updateClause, _, _, hx, _ => by obtain rfl := hx rfl; exact plainEnd rfl (updateClause_t E hn)
  | .boundApexExpression, _, _, hx, _ => by obtain rfl := hx rfl; exact plainEnd rfl (boundApexExpression_t E hn)
  | .soslUsingClause, _, _, hx, _ => by obtain rfl := hx rfl; exact plainEnd rfl (soslUsingClause_t E hn)
  | .usingSearch, _, _, hx, _ => by obtain rfl := hx rfl; exact plainEnd rfl (usingSearch_t E hn)
  | .usingClause, _, _, hx, _ => by obtain rfl := hx rfl; exact plainEnd rfl (usingClause_t E hn)
  | .usingClauseOption, _, _, hx, _ => by obtain rfl := hx rfl; exact plainEnd rfl (usingClauseOption_t E hn)
  | .usingScopeClause, _, _, hx, _ => by obtain rfl := hx rfl; exact plainEnd rfl (usingScopeClause_t E hn)
  | .usingLookupClause, _, _, hx, _ => by obtain rfl := hx rfl; exact plainEnd rfl (usingLookupClause_t E hn)
  | .usingListviewClause, _, _, hx, _ => by obtain rfl := hx rfl; exact plainEnd rfl (usingListviewClause_t E hn)
  | .usingLookupBindClause, _, _, hx, _ => by obtain rfl := hx rfl; exact plainEnd rfl (usingLookupBindClause_t E hn)
  | .usingLookupBindExpression, _, _, hx, _ => by obtain rfl := hx rfl; exact plainEnd rfl (usingLookupBindExpression_t E hn)
  | .whereClause, _, _, hx, _ => by obtain rfl := hx rfl; exact plainEnd rfl (whereClause_t E hn)
  | .comparisonExpression, _, _, hx, hq => by obtain rfl := hx rfl; exact plainEnd rfl (comparisonExpression_t E hn (hq rfl))
  | .comparableList, _, _, hx, _ => by obtain rfl := hx rfl; exact plainEnd rfl (comparableList_t E hn)
  | .orderByClause, _, _, hx, _ => by obtain rfl := hx rfl; exact plainEnd rfl (orderByClause_t E hn)
  | .orderExpression, _, _, hx, _ => by obtain rfl := hx rfl; exact plainEnd rfl (orderExpression_t E hn)
  | .subQuery, _, _, hx, _ => by obtain rfl := hx rfl; exact plainEnd rfl (subQuery_t E hn)
  | .mapCreationExpression, _, _, hx, _ => by obtain rfl := hx rfl; exact plainEnd rfl (mapCreationExpression_t E hn)
  | .mapInitializer, _, _, hx, _ => by obtain rfl := hx rfl; exact plainEnd rfl (mapInitializer_t E hn)
  | .mapKeyInitializer, _, _, hx, _ => by obtain rfl := hx rfl; exact plainEnd rfl (mapKeyInitializer_t E hn)
  | .groupByClause, _, _, hx, _ => by obtain rfl := hx rfl; exact plainEnd rfl (groupByClause_t E hn)
  | .havingClause, _, _, hx, _ => by obtain rfl := hx rfl; exact plainEnd rfl (havingClause_t E hn)
  | .soslWithClause, _, _, hx, _ => by obtain rfl := hx rfl; exact plainEnd rfl (soslWithClause_t E hn)
  | .soqlWithClause, _, _, hx, _ => by obtain rfl := hx rfl; exact plainEnd rfl (soqlWithClause_t E hn)
  | .soqlWithTypeVariant, _, _, hx, _ => by obtain rfl := hx rfl; exact plainEnd rfl (soqlWithTypeVariant_t E hn)
  | .soslWithType, _, _, hx, _ => by obtain rfl := hx rfl; exact plainEnd rfl (soslWithType_t E hn)
  | .withDataCatExpression, _, _, hx, _ => by obtain rfl := hx rfl; exact plainEnd rfl (withDataCatExpression_t E hn)
  | .withDataCatFilter, _, _, hx, _ => by obtain rfl := hx rfl; exact plainEnd rfl (withDataCatFilter_t E hn)
  | .withDivisionExpression, _, _, hx, _ => by obtain rfl := hx rfl; exact plainEnd rfl (withDivisionExpression_t E hn)
  | .withSnippetExpression, _, _, hx, _ => by obtain rfl := hx rfl; exact plainEnd rfl (withSnippetExpression_t E hn)
  | .withNetworkExpression, _, _, hx, hq => by obtain rfl := hx rfl; exact plainEnd rfl (withNetworkExpression_t E hn (hq rfl))
  | .withMetadataExpression, _, _, hx, _ => by obtain rfl := hx rfl; exact plainEnd rfl (withMetadataExpression_t E hn)
  | .withSpellCorrectionExpression, _, _, hx, _ => by obtain rfl := hx rfl; exact plainEnd rfl (withSpellCorrectionExpression_t E hn)
  | .withPriceBookExpression, _, _, hx, _ => by obtain rfl := hx rfl; exact plainEnd rfl (withPriceBookExpression_t E hn)
  | .dottedIdentifier, _, _, hx, _ => by obtain rfl := hx rfl; exact plainEnd rfl (dottedIdentifier_t E hn)
  | .valueNode, hme, _, hx, _ => by obtain rfl := hx rfl; exact plainEnd rfl (valueNode_t E hn (hme rfl))
  | .valueNodeLowerCase, hme, _, hx, _ => by obtain rfl := hx rfl; exact plainEnd rfl (valueNodeLowerCase_t E hn (hme rfl))
  | .valueNodeUpperCase, hme, _, hx, _ => by obtain rfl := hx rfl; exact plainEnd rfl (valueNodeUpperCase_t E hn (hme rfl))
  | .expressionStatement, _, _, hx, _ => by obtain rfl := hx rfl; exact plainEnd rfl (expressionStatement_t E hn)
  | .safeNavigationOperator, _, _, hx, _ => by obtain rfl := hx rfl; exact plainEnd rfl (safeNavigationOperator_t E hn)
  | .countExpression, _, _, hx, _ => by obtain rfl := hx rfl; exact plainEnd rfl (countExpression_t E hn)
  | .andExpression, _, _, hx, _ => by obtain rfl := hx rfl; exact plainEnd rfl (andExpression_t E hn)
  | .orExpression, _, _, hx, _ => by obtain rfl := hx rfl; exact plainEnd rfl (orExpression_t E hn)
  | .notExpression, _, _, hx, _ => by obtain rfl := hx rfl; exact plainEnd rfl (notExpression_t E hn)
  | .forClause, _, _, hx, _ => by obtain rfl := hx rfl; exact plainEnd rfl (forClause_t E hn)
  | .allRowsClause, _, _, hx, _ => by obtain rfl := hx rfl; exact plainEnd rfl (allRowsClause_t E hn)
  | .dmlType, _, _, hx, _ => by obtain rfl := hx rfl; exact plainEnd rfl (dmlType_t E hn)
  | .rootMember, _, _, _, _ => plainEnd rfl (rootMember_t E hn)
  | .classMember, _, _, _, _ => plainEnd rfl (classMember_t E hn)
  | .unannotatedType, _, _, hx, _ => by obtain rfl := hx rfl; exact plainEnd rfl (unannotatedType_t E hn)
  | .simpleType, _, _, hx, _ => by obtain rfl := hx rfl; exact plainEnd rfl (simpleType_t E hn)
  | .variableInitializer, _, _, hx, _ => by obtain rfl := hx rfl; exact plainEnd rfl (variableInitializer_t E hn)
  | .expression, _, _, hx, _ => by obtain rfl := hx rfl; exact plainEnd rfl (expression_t E hn)
  | .primaryExpression, _, _, hx, _ => by obtain rfl := hx rfl; exact plainEnd rfl (primaryExpression_t E hn)
  | .classLiteral, _, _, hx, _ => by obtain rfl := hx rfl; exact plainEnd rfl (classLiteral_t E hn)
  | .literal, _, _, hx, _ => by obtain rfl := hx rfl; exact plainEnd rfl (literal_t E hn)
  | .modifierKind, _, _, hx, _ => by obtain rfl := hx rfl; exact plainEnd rfl (modifierKind_t E hn)
  | .statement, _, _, _, _ => plainEnd rfl (statement_t E hn)
  | .type, _, _, hx, _ => by obtain rfl := hx rfl; exact plainEnd rfl (type_t E hn)
  | .annotationArgumentList, _, h, _, _ => by cases h
  | .triggerEventVariant, _, _, hx, _ => by obtain rfl := hx rfl; exact plainEnd rfl (triggerEventVariant_t E hn)
  | .selectClauseVariant, _, _, hx, _ => by obtain rfl := hx rfl; exact plainEnd rfl (selectClauseVariant_t E hn)
  | .selectableExpression, _, _, hx, _ => by obtain rfl := hx rfl; exact plainEnd rfl (selectableExpression_t E hn)
  | .fieldsExpression, _, _, hx, _ => by obtain rfl := hx rfl; exact plainEnd rfl (fieldsExpression_t E hn)
  | .aliasExpression, _, _, hx, _ => by obtain rfl := hx rfl; exact plainEnd rfl (aliasExpression_t E hn)
  | .fieldIdentifierVariant, _, _, hx, _ => by obtain rfl := hx rfl; exact plainEnd rfl (fieldIdentifierVariant_t E hn)
  | .storageVariant, _, _, hx, _ => by obtain rfl := hx rfl; exact plainEnd rfl (storageVariant_t E hn)
  | .storageIdentifierVariant, _, _, hx, _ => by obtain rfl := hx rfl; exact plainEnd rfl (storageIdentifierVariant_t E hn)
  | .limitValue, _, _, hx, _ => by obtain rfl := hx rfl; exact plainEnd rfl (limitValue_t E hn)
  | .booleanExpression, _, _, hx, _ => by obtain rfl := hx rfl; exact plainEnd rfl (booleanExpression_t E hn)
  | .valueExpression, _, _, hx, _ => by obtain rfl := hx rfl; exact plainEnd rfl (valueExpression_t E hn)
  | .geoLocationTypeVariant, _, _, hx, _ => by obtain rfl := hx rfl; exact plainEnd rfl (geoLocationTypeVariant_t E hn)
  | .comparison, _, h, _, _ => by cases h
  | .soqlLiteral, _, _, hx, _ => by obtain rfl := hx rfl; exact plainEnd rfl (soqlLiteral_t E hn)
  | .dateLiteralWithParam, _, _, hx, _ => by obtain rfl := hx rfl; exact plainEnd rfl (dateLiteralWithParam_t E hn)
  | .setValue, _, _, hx, _ => by obtain rfl := hx rfl; exact plainEnd rfl (setValue_t E hn)
  | .comparableListValue, _, _, hx, _ => by obtain rfl := hx rfl; exact plainEnd rfl (comparableListValue_t E hn)
  | .offsetClause, _, _, hx, _ => by obtain rfl := hx rfl; exact plainEnd rfl (offsetClause_t E hn)
  | .functionExpressionVariant, _, _, hx, _ => by obtain rfl := hx rfl; exact plainEnd rfl (functionExpressionVariant_t E hn)

/-- One call of a constructor whose program begins with a blank. -/
theorem led_t {n : Loc} (hn : In root n) {x : St} (E : Env root n x rec) : ∀ c, ledCls c = true →
    (passCls c = false → x = if bodyCls c then .Q else .N) → Quiet n.id → P (Prog.step cfg rec c n) Led
  | .catchClause, _, hx, hq => by obtain rfl := hx rfl; exact catchClause_t E hn hq
  | .finallyClause, _, hx, hq => by obtain rfl := hx rfl; exact finallyClause_t E hn hq
  | .extendsInterface, _, hx, hq => by obtain rfl := hx rfl; exact extendsInterface_t E hn hq
  | .comparison, _, _, hq => comparison_t E hn hq

end Afmt.Ends
