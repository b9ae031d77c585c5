import Verif.Ast.A5

/-!
# Tying the knot

`step` is one constructor call given the constructors it may call; `new` iterates it.  The depth bound plays the role
of the call stack: a Rust program that recurses deeper than its stack dies, here with the error `stackOverflow`.
-/

namespace Afmt
namespace Prog
open New

/-- `T::new(node)` followed by `build`, for the type `T` named by the class (src/data_model.rs, src/enum_def.rs; the
single functions cite their lines). -/
def step (cfg : Cfg) (rec : Rec) (c : Cls) (n : Loc) : R Prog :=
  match c with
  | .root => New.root cfg rec n
  | .classDeclaration => New.classDeclaration rec n
  | .methodDeclaration => New.methodDeclaration rec n
  | .formalParameters => New.formalParameters rec n
  | .formalParameter => New.formalParameter rec n
  | .superClass => New.superClass rec n
  | .modifiers => New.modifiers rec n
  | .modifier => New.modifier rec n
  | .annotation => New.annotation rec n
  | .annotationKeyValue => New.annotationKeyValue rec n
  | .classBody => New.classBody cfg rec n
  | .fieldDeclaration => New.fieldDeclaration rec n
  | .arrayInitializer => New.arrayInitializer rec n
  | .assignmentExpression => New.assignmentExpression rec n
  | .assignmentLeft => New.assignmentLeft rec n
  | .boolType => New.boolType n
  | .block => New.block cfg rec n
  | .interface => New.interface rec n
  | .typeList => New.typeList rec n
  | .objectExpression => New.objectExpression rec n
  | .methodInvocation => New.methodInvocation rec n
  | .typeArguments => New.typeArguments rec n
  | .argumentList => New.argumentList rec n
  | .super => New.super n
  | .this => New.this n
  | .binaryExpression => New.binaryExpression rec n
  | .localVariableDeclaration => New.localVariableDeclaration rec n
  | .variableDeclarator => New.variableDeclarator rec n
  | .genericType => New.genericType rec n
  | .ifStatement => New.ifStatement rec n
  | .parenthesizedExpression => New.parenthesizedExpression rec n
  | .forInitOption => New.forInitOption rec n
  | .forStatement => New.forStatement rec n
  | .enhancedForStatement => New.enhancedForStatement rec n
  | .updateExpressionVariant => New.updateExpressionVariant rec n
  | .scopedTypeIdentifier => New.scopedTypeIdentifier rec n
  | .constructorDeclaration => New.constructorDeclaration rec n
  | .constructorBody => New.constructorBody cfg rec n
  | .constructInvocation => New.constructInvocation rec n
  | .typeParameters => New.typeParameters rec n
  | .typeParameter => New.typeParameter rec n
  | .objectCreationExpression => New.objectCreationExpression rec n
  | .runAsStatement => New.runAsStatement rec n
  | .doStatement => New.doStatement rec n
  | .whileStatement => New.whileStatement rec n
  | .unaryExpression => New.unaryExpression rec n
  | .fieldAccess => New.fieldAccess rec n
  | .fieldOption => New.fieldOption rec n
  | .enumDeclaration => New.enumDeclaration rec n
  | .enumBody => New.enumBody rec n
  | .enumConstant => New.enumConstant rec n
  | .dmlExpressionVariant => New.dmlExpressionVariant rec n
  | .dmlSecurityMode => New.dmlSecurityMode n
  | .dmlTypeVariant => New.dmlTypeVariant n
  | .arrayAccess => New.arrayAccess rec n
  | .arrayCreationExpression => New.arrayCreationExpression rec n
  | .dimensions => New.dimensions n
  | .dimensionsExpr => New.dimensionsExpr rec n
  | .returnStatement => New.returnStatement rec n
  | .ternaryExpression => New.ternaryExpression rec n
  | .tryStatement => New.tryStatement rec n
  | .catchClause => New.catchClause rec n
  | .finallyClause => New.finallyClause rec n
  | .staticInitializer => New.staticInitializer rec n
  | .interfaceDeclaration => New.interfaceDeclaration rec n
  | .extendsInterface => New.extendsInterface rec n
  | .interfaceBody => New.interfaceBody cfg rec n
  | .interfaceMember => New.interfaceMember rec n
  | .constantDeclaration => New.constantDeclaration rec n
  | .accessorList => New.accessorList rec n
  | .accessorDeclaration => New.accessorDeclaration rec n
  | .castExpression => New.castExpression rec n
  | .throwStatement => New.throwStatement rec n
  | .breakStatement => New.breakStatement rec n
  | .continueStatement => New.continueStatement rec n
  | .switchExpression => New.switchExpression rec n
  | .switchBlock => New.switchBlock rec n
  | .switchRule => New.switchRule rec n
  | .switchLabel => New.switchLabel rec n
  | .whenSObjectType => New.whenSObjectType rec n
  | .instanceOfExpression => New.instanceOfExpression rec n
  | .versionExpression => New.versionExpression rec n
  | .javaFieldAccess => New.javaFieldAccess rec n
  | .javaType => New.javaType rec n
  | .arrayType => New.arrayType rec n
  | .triggerDeclaration => New.triggerDeclaration rec n
  | .triggerEvent => New.triggerEvent rec n
  | .triggerBody => New.triggerBody rec n
  | .queryExpression => New.queryExpression rec n
  | .soslQueryBody => New.soslQueryBody rec n
  | .findClause => New.findClause rec n
  | .inClause => New.inClause rec n
  | .returningClause => New.returningClause rec n
  | .sObjectReturn => New.sObjectReturn rec n
  | .soqlQueryBody => New.soqlQueryBody rec n
  | .fromClause => New.fromClause rec n
  | .storageAlias => New.storageAlias rec n
  | .limitClause => New.limitClause rec n
  | .updateClause => New.updateClause rec n
  | .boundApexExpression => New.boundApexExpression rec n
  | .soslUsingClause => New.soslUsingClause rec n
  | .usingSearch => New.usingSearch n
  | .usingClause => New.usingClause rec n
  | .usingClauseOption => New.usingClauseOption rec n
  | .usingScopeClause => New.usingScopeClause rec n
  | .usingLookupClause => New.usingLookupClause rec n
  | .usingListviewClause => New.usingListviewClause rec n
  | .usingLookupBindClause => New.usingLookupBindClause rec n
  | .usingLookupBindExpression => New.usingLookupBindExpression rec n
  | .whereClause => New.whereClause rec n
  | .comparisonExpression => New.comparisonExpression rec n
  | .comparableList => New.comparableList rec n
  | .orderByClause => New.orderByClause rec n
  | .orderExpression => New.orderExpression rec n
  | .subQuery => New.subQuery rec n
  | .mapCreationExpression => New.mapCreationExpression rec n
  | .mapInitializer => New.mapInitializer rec n
  | .mapKeyInitializer => New.mapKeyInitializer rec n
  | .groupByClause => New.groupByClause rec n
  | .havingClause => New.havingClause rec n
  | .soslWithClause => New.soslWithClause rec n
  | .soqlWithClause => New.soqlWithClause rec n
  | .soqlWithTypeVariant => New.soqlWithTypeVariant rec n
  | .soslWithType => New.soslWithType rec n
  | .withDataCatExpression => New.withDataCatExpression rec n
  | .withDataCatFilter => New.withDataCatFilter rec n
  | .withDivisionExpression => New.withDivisionExpression rec n
  | .withSnippetExpression => New.withSnippetExpression rec n
  | .withNetworkExpression => New.withNetworkExpression rec n
  | .withMetadataExpression => New.withMetadataExpression rec n
  | .withSpellCorrectionExpression => New.withSpellCorrectionExpression rec n
  | .withPriceBookExpression => New.withPriceBookExpression rec n
  | .dottedIdentifier => New.dottedIdentifier rec n
  | .valueNode => New.valueNode n
  | .valueNodeLowerCase => New.valueNodeLowerCase n
  | .valueNodeUpperCase => New.valueNodeUpperCase n
  | .expressionStatement => New.expressionStatement rec n
  | .safeNavigationOperator => New.safeNavigationOperator n
  | .countExpression => New.countExpression rec n
  | .functionExpression => wrapper rec "function_expression" .functionExpressionVariant n
  | .fieldIdentifier => wrapper rec "field_identifier" .fieldIdentifierVariant n
  | .geoLocationType => wrapper rec "geo_location_type" .geoLocationTypeVariant n
  | .selectClause => wrapper rec "select_clause" .selectClauseVariant n
  | .storageIdentifier => wrapper rec "storage_identifier" .storageIdentifierVariant n
  | .andExpression => New.andExpression rec n
  | .orExpression => New.orExpression rec n
  | .notExpression => New.notExpression rec n
  | .soqlWithType => wrapper rec "with_type" .soqlWithTypeVariant n
  | .forClause => New.forClause rec n
  | .allRowsClause => New.allRowsClause n
  | .updateExpression => wrapper rec "update_expression" .updateExpressionVariant n
  | .dmlExpression => wrapper rec "dml_expression" .dmlExpressionVariant n
  | .dmlType => New.dmlType rec n
  | .rootMember => New.rootMember rec n
  | .classMember => New.classMember rec n
  | .unannotatedType => New.unannotatedType rec n
  | .simpleType => New.simpleType rec n
  | .variableInitializer => New.variableInitializer rec n
  | .expression => New.expression rec n
  | .primaryExpression => New.primaryExpression rec n
  | .classLiteral => New.classLiteral rec n
  | .literal => New.literal rec n
  | .modifierKind => New.modifierKind n
  | .statement => New.statement rec n
  | .type => New.type rec n
  | .annotationArgumentList => New.annotationArgumentList rec n
  | .triggerEventVariant => New.triggerEventVariant n
  | .selectClauseVariant => New.selectClauseVariant rec n
  | .selectableExpression => New.selectableExpression rec n
  | .fieldsExpression => New.fieldsExpression rec n
  | .aliasExpression => New.aliasExpression rec n
  | .fieldIdentifierVariant => New.fieldIdentifierVariant rec n
  | .storageVariant => New.storageVariant rec n
  | .storageIdentifierVariant => New.storageIdentifierVariant rec n
  | .limitValue => New.limitValue rec n
  | .booleanExpression => New.booleanExpression rec n
  | .conditionExpression => conditionExpression rec none n
  | .valueExpression => New.valueExpression rec n
  | .geoLocationTypeVariant => New.geoLocationTypeVariant rec n
  | .comparison => New.comparison rec n
  | .soqlLiteral => New.soqlLiteral rec n
  | .dateLiteralWithParam => New.dateLiteralWithParam n
  | .setValue => New.setValue rec n
  | .comparableListValue => New.comparableListValue rec n
  | .offsetClause => New.offsetClause rec n
  | .functionExpressionVariant => New.functionExpressionVariant rec n

/-- Constructors with recursion depth at most `fuel`. -/
def new (cfg : Cfg) : Nat → Rec
  | 0 => fun _ _ => .error .stackOverflow
  | fuel + 1 => step cfg (new cfg fuel)

end Prog
end Afmt
