import Verif.Ast.A4

/-!
# src/enum_def.rs
-/

namespace Afmt
namespace Prog.New

/-- `RootMember` (src/enum_def.rs 11-48). -/
def rootMember (rec : Rec) (n : Loc) : R Prog :=
  dispatch rec [("class_declaration", .classDeclaration), ("enum_declaration", .enumDeclaration),
    ("trigger_declaration", .triggerDeclaration), ("interface_declaration", .interfaceDeclaration)] n

/-- `ClassMember` (src/enum_def.rs 50-108). -/
def classMember (rec : Rec) (n : Loc) : R Prog :=
  dispatch rec [("field_declaration", .fieldDeclaration), ("class_declaration", .classDeclaration),
    ("method_declaration", .methodDeclaration), ("interface_declaration", .interfaceDeclaration), ("block", .block),
    ("constructor_declaration", .constructorDeclaration), ("enum_declaration", .enumDeclaration),
    ("static_initializer", .staticInitializer)] n

/-- `UnannotatedType` (src/enum_def.rs 110-138). -/
def unannotatedType (rec : Rec) (n : Loc) : R Prog :=
  dispatch rec [("type_identifier", .simpleType), ("void_type", .simpleType), ("boolean_type", .simpleType),
    ("generic_type", .simpleType), ("java_type", .simpleType), ("scoped_type_identifier", .simpleType),
    ("array_type", .arrayType)] n

/-- `SimpleType` (src/enum_def.rs 140-187). -/
def simpleType (rec : Rec) (n : Loc) : R Prog :=
  dispatch rec [("type_identifier", .valueNode), ("void_type", .valueNode), ("boolean_type", .boolType),
    ("java_type", .javaType), ("generic_type", .genericType), ("scoped_type_identifier", .scopedTypeIdentifier)] n

/-- `VariableInitializer` (src/enum_def.rs 189-215). -/
def variableInitializer (rec : Rec) (n : Loc) : R Prog :=
  if n.kind = "array_initializer" then rec .arrayInitializer n else rec .expression n

/-- `Expression` (src/enum_def.rs 217-296). -/
def expression (rec : Rec) (n : Loc) : R Prog :=
  dispatch rec [("assignment_expression", .assignmentExpression), ("binary_expression", .binaryExpression),
    ("int", .primaryExpression), ("decimal_floating_point_literal", .primaryExpression),
    ("query_expression", .primaryExpression), ("boolean", .primaryExpression), ("identifier", .primaryExpression),
    ("null_literal", .primaryExpression), ("class_literal", .primaryExpression),
    ("method_invocation", .primaryExpression), ("parenthesized_expression", .primaryExpression),
    ("object_creation_expression", .primaryExpression), ("map_creation_expression", .primaryExpression),
    ("array_access", .primaryExpression), ("field_access", .primaryExpression), ("string_literal", .primaryExpression),
    ("version_expression", .primaryExpression), ("java_field_access", .primaryExpression), ("this", .primaryExpression),
    ("array_creation_expression", .primaryExpression), ("update_expression", .updateExpression),
    ("unary_expression", .unaryExpression), ("dml_expression", .dmlExpression),
    ("ternary_expression", .ternaryExpression), ("cast_expression", .castExpression),
    ("instanceof_expression", .instanceOfExpression)] n

/-- `PrimaryExpression` (src/enum_def.rs 316-407). -/
def primaryExpression (rec : Rec) (n : Loc) : R Prog :=
  dispatch rec [("int", .literal), ("decimal_floating_point_literal", .literal), ("boolean", .literal),
    ("null_literal", .literal), ("string_literal", .literal), ("identifier", .valueNode),
    ("class_literal", .classLiteral), ("method_invocation", .methodInvocation),
    ("parenthesized_expression", .parenthesizedExpression), ("object_creation_expression", .objectCreationExpression),
    ("map_creation_expression", .mapCreationExpression), ("field_access", .fieldAccess), ("array_access", .arrayAccess),
    ("array_creation_expression", .arrayCreationExpression), ("version_expression", .versionExpression),
    ("query_expression", .queryExpression), ("java_field_access", .javaFieldAccess), ("this", .this)] n

/-- `ClassLiteral` (src/enum_def.rs 409-433). -/
def classLiteral (rec : Rec) (n : Loc) : R Prog := do
  assertCheck n "class_literal"
  let ty ← rec .unannotatedType (← n.firstC)
  .ok (bwcp n [ty, t ".class"])

/-- `Literal_` (src/enum_def.rs 435-477). -/
def literal (rec : Rec) (n : Loc) : R Prog :=
  dispatch rec [("boolean", .valueNodeLowerCase), ("null_literal", .valueNodeLowerCase), ("int", .valueNode),
    ("string_literal", .valueNode), ("decimal_floating_point_literal", .valueNodeLowerCase)] n

/-- Lookup of a fixed text by kind. -/
def keyword (tbl : List (String × String)) (n : Loc) : R Prog :=
  match tbl.find? (fun e => e.1 == n.kind) with
  | some e => .ok (t e.2)
  | none => .error .unknownNode

/-- `ModifierKind` (src/enum_def.rs 479-572). -/
def modifierKind (n : Loc) : R Prog :=
  keyword [("global", "global"), ("public", "public"), ("with_sharing", "with sharing"),
    ("without_sharing", "without sharing"), ("private", "private"), ("override", "override"), ("static", "static"),
    ("final", "final"), ("virtual", "virtual"), ("abstract", "abstract"), ("inherited_sharing", "inherited sharing"),
    ("protected", "protected"), ("testMethod", "testMethod"), ("transient", "transient"),
    ("webservice", "webService")] n

/-- `Statement` (src/enum_def.rs 594-694). -/
def statement (rec : Rec) (n : Loc) : R Prog :=
  if n.kind = ";" then .ok (t ";")
  else dispatch rec [("if_statement", .ifStatement), ("expression_statement", .expressionStatement),
    ("local_variable_declaration", .localVariableDeclaration), ("block", .block), ("for_statement", .forStatement),
    ("enhanced_for_statement", .enhancedForStatement), ("run_as_statement", .runAsStatement),
    ("do_statement", .doStatement), ("while_statement", .whileStatement), ("return_statement", .returnStatement),
    ("try_statement", .tryStatement), ("throw_statement", .throwStatement), ("break_statement", .breakStatement),
    ("continue_statement", .continueStatement), ("switch_expression", .switchExpression)] n

/-- `Type` (src/enum_def.rs 696-724). -/
def type (rec : Rec) (n : Loc) : R Prog :=
  dispatch rec [("type_identifier", .simpleType), ("void_type", .simpleType), ("boolean_type", .simpleType),
    ("generic_type", .simpleType), ("scoped_type_identifier", .simpleType), ("java_type", .simpleType),
    ("array_type", .arrayType)] n

/-- `AnnotationArgumentList` (src/enum_def.rs 745-793). -/
def annotationArgumentList (rec : Rec) (n : Loc) : R Prog :=
  if n.namedChildren.isEmpty then .ok (.concat [])
  else if (n.tryCsByK "annotation_key_value").isEmpty then do
    let v ← rec .valueNode (← n.cByN "value")
    .ok (.concat [t "(", v, t ")"])
  else do
    let kvs ← mapR (rec .annotationKeyValue) (n.tryCsByK "annotation_key_value")
    .ok (parenList kvs)

/-- `TriggerEventVariant` (src/enum_def.rs 826-878). -/
def triggerEventVariant (n : Loc) : R Prog :=
  keyword [("before_insert", "before insert"), ("before_update", "before update"), ("before_delete", "before delete"),
    ("after_insert", "after insert"), ("after_update", "after update"), ("after_delete", "after delete"),
    ("after_undelete", "after undelete")] n

/-- `SelectClauseVariant` (src/enum_def.rs 880-924). -/
def selectClauseVariant (rec : Rec) (n : Loc) : R Prog := do
  assertCheck n "select_clause"
  let rest ← (match n.tryCByK "count_expression" with
    | some c => rec .countExpression c
    | none => do
      let ds ← mapR (rec .selectableExpression) n.childrenVec
      .ok (.indent (intersperse ds (.after .softline))))
  .ok (groupConcat [t "SELECT", .indent .softline, rest])

/-- `SelectableExpression` (src/enum_def.rs 926-967).  `ValueExpression::Field` and `::Function` are transparent. -/
def selectableExpression (rec : Rec) (n : Loc) : R Prog :=
  dispatch rec [("field_identifier", .fieldIdentifier), ("function_expression", .functionExpression),
    ("alias_expression", .aliasExpression), ("fields_expression", .fieldsExpression), ("subquery", .subQuery)] n

/-- `FieldsExpression` (src/enum_def.rs 969-994). -/
def fieldsExpression (rec : Rec) (n : Loc) : R Prog := do
  assertCheck n "fields_expression"
  let ty ← rec .valueNodeUpperCase (← n.cByK "fields_type")
  .ok (bwcp n [t "FIELDS(", ty, t ")"])

/-- `AliasExpression` (src/enum_def.rs 996-1023). -/
def aliasExpression (rec : Rec) (n : Loc) : R Prog := do
  assertCheck n "alias_expression"
  let v ← rec .valueExpression (← n.firstC)
  let i ← rec .valueNode (← n.cByK "identifier")
  .ok (bwcp n [v, t " ", i])

/-- `FieldIdentifierVariant` (src/enum_def.rs 1025-1055). -/
def fieldIdentifierVariant (rec : Rec) (n : Loc) : R Prog := do
  assertCheck n "field_identifier"
  dispatch rec [("identifier", .valueNode), ("dotted_identifier", .dottedIdentifier)] (← n.firstC)

/-- `StorageVariant` (src/enum_def.rs 1057-1084). -/
def storageVariant (rec : Rec) (n : Loc) : R Prog :=
  dispatch rec [("storage_alias", .storageAlias), ("storage_identifier", .storageIdentifier)] n

/-- `StorageIdentifierVariant` (src/enum_def.rs 1086-1124). -/
def storageIdentifierVariant (rec : Rec) (n : Loc) : R Prog := do
  assertCheck n "storage_identifier"
  let c ← n.firstC
  if c.kind = "identifier" then rec .valueNode c
  else if c.kind = "dotted_identifier" then
    let is ← mapR (rec .valueNode) (← c.csByK "identifier")
    .ok (intersperse is (.s "."))
  else .error .unknownNode

/-- `LimitValue` (src/enum_def.rs 1126-1153). -/
def limitValue (rec : Rec) (n : Loc) : R Prog :=
  dispatch rec [("int", .valueNode), ("bound_apex_expression", .boundApexExpression)] n

/-- `ValueExpression` (src/enum_def.rs 1251-1278). -/
def valueExpression (rec : Rec) (n : Loc) : R Prog :=
  dispatch rec [("field_identifier", .fieldIdentifier), ("function_expression", .functionExpression)] n

/-- `GeoLocationTypeVariant` (src/enum_def.rs 1280-1341). -/
def geoLocationTypeVariant (rec : Rec) (n : Loc) : R Prog := do
  let child ← n.firstC
  if child.kind = "field_identifier" then rec .fieldIdentifier child
  else if child.kind = "bound_apex_expression" then rec .boundApexExpression child
  else if child.kind = "identifier" then
    let ds ← n.csByK "decimal"
    match ds with
    | [d1, d2] =>
      let f ← rec .valueNode child
      let a ← rec .valueNode d1
      let b ← rec .valueNode d2
      .ok (.concat [f, t "(", a, t " ", b, t ")"])
    | _ => .error .missingChild
  else .error .unknownNode

/-- `SoqlLiteral` (src/enum_def.rs 1381-1440). -/
def soqlLiteral (rec : Rec) (n : Loc) : R Prog :=
  dispatch rec [("decimal", .valueNode), ("int", .valueNode), ("string_literal", .valueNode), ("boolean", .valueNode),
    ("date", .valueNode), ("date_literal", .valueNode), ("date_literal_with_param", .dateLiteralWithParam),
    ("null_literal", .valueNode)] n

/-- `DateLiteralWithParam` (src/enum_def.rs 1442-1467). -/
def dateLiteralWithParam (n : Loc) : R Prog := do
  assertCheck n "date_literal_with_param"
  let d ← n.cvalueByK "date_literal"
  let p ← n.cvalueByK "int"
  .ok (bwcp n [.txt (toUpper d ++ ':' :: p)])

/-- `SetValue` (src/enum_def.rs 1469-1501). -/
def setValue (rec : Rec) (n : Loc) : R Prog :=
  dispatch rec [("subquery", .subQuery), ("comparable_list", .comparableList),
    ("bound_apex_expression", .boundApexExpression)] n

/-- `ComparableListValue` (src/enum_def.rs 1503-1529). -/
def comparableListValue (rec : Rec) (n : Loc) : R Prog :=
  if n.kind = "bound_apex_expression" then rec .boundApexExpression n else rec .soqlLiteral n

/-- `OffsetClause` (src/enum_def.rs 1531-1563): the bucket of the clause itself is never printed. -/
def offsetClause (rec : Rec) (n : Loc) : R Prog := do
  assertCheck n "offset_clause"
  let d ← dispatch rec [("int", .valueNode), ("bound_apex_expression", .boundApexExpression)] (← n.firstC)
  .ok (.concat [tR "OFFSET", d])

/-- `FunctionExpressionVariant` (src/enum_def.rs 1565-1651). -/
def functionExpressionVariant (rec : Rec) (n : Loc) : R Prog := do
  assertCheck n "function_expression"
  match n.tryCByK "geo_location_type" with
  | some g =>
    let f ← rec .valueNode (← n.cByN "function_name")
    let field ← optR (n.tryCByK "field_identifier") (rec .fieldIdentifier)
    let bound ← optR (n.tryCByK "bound_apex_expression") (rec .boundApexExpression)
    let geo ← rec .geoLocationType g
    let s ← rec .valueNode (← n.cByK "string_literal")
    .ok (.concat ([f, t "("] ++ opt field ++ opt bound ++ [t " ", geo, t " ", s, t ")"]))
  | none =>
    let f ← rec .valueNode (← n.cByN "function_name")
    let vs ← mapR (rec .valueExpression) (n.childrenVec.drop 1)
    .ok (.concat [f, parenList vs])

end Prog.New
end Afmt
