import Verif.Ast.A3

/-!
# src/data_model.rs 3828-6094 (queries, value nodes and wrappers)
-/

namespace Afmt
namespace Prog.New

/-- `to_lowercase` (simplified: ASCII letters only; Apex keywords and literals are ASCII). -/
def toLower (s : Str) : Str := s.map Char.toLower
/-- `to_uppercase` (simplified: ASCII letters only). -/
def toUpper (s : Str) : Str := s.map Char.toUpper

/-- `QueryExpression` and `QueryBody` (src/data_model.rs 3828-3899). -/
def queryExpression (rec : Rec) (n : Loc) : R Prog := do
  assertCheck n "query_expression"
  let body ← (match n.tryCByK "soql_query_body" with
    | some s => rec .soqlQueryBody s
    | none => do rec .soslQueryBody (← n.cByK "sosl_query_body"))
  let ctx ← buildChainingContext n
  .ok (bwcp n
    [if ctx.isSome then
      groupConcat [t "[", .maybeline, intersperse [body] (.after .softline), .dedent .maybeline, t "]"]
     else groupSurround [body] (.after .softline) (.sAfter "[" .maybeline) (.before .maybeline "]")])

/-- `SoslQueryBody` (src/data_model.rs 3901-3982). -/
def soslQueryBody (rec : Rec) (n : Loc) : R Prog := do
  assertCheck n "sosl_query_body"
  let find ← rec .findClause (← n.cByK "find_clause")
  let in_ ← optR (n.tryCByK "in_clause") (rec .inClause)
  let returning ← optR (n.tryCByK "returning_clause") (rec .returningClause)
  let withs ← mapR (rec .soslWithClause) (n.tryCsByK "with_clause")
  let using_ ← optR (n.tryCByK "sosl_using_clause") (rec .soslUsingClause)
  let limit ← optR (n.tryCByK "limit_clause") (rec .limitClause)
  let update ← optR (n.tryCByK "update_clause") (rec .updateClause)
  .ok (bwcp n [intersperse ([find] ++ opt in_ ++ opt returning ++
    (if withs.isEmpty then [] else [intersperse withs (.after .softline)]) ++
    opt using_ ++ opt limit ++ opt update) (.after .softline)])

/-- `FindClause` (src/data_model.rs 3984-4014). -/
def findClause (rec : Rec) (n : Loc) : R Prog := do
  assertCheck n "find_clause"
  match n.tryCByK "bound_apex_expression" with
  | some b =>
    let d ← rec .boundApexExpression b
    .ok (.concat [tR "FIND", d])
  | none =>
    let v ← n.cvalueByK "term"
    .ok (.concat [tR "FIND", .txt ('\'' :: (v ++ ['\'']))])

/-- `InClause` (src/data_model.rs 4016-4042). -/
def inClause (rec : Rec) (n : Loc) : R Prog := do
  assertCheck n "in_clause"
  let ty ← rec .valueNode (← n.cByK "in_type")
  .ok (bwcp n [tR "IN", ty, t " ", t "FIELDS"])

/-- `ReturningClause` (src/data_model.rs 4044-4076). -/
def returningClause (rec : Rec) (n : Loc) : R Prog := do
  let docs ← mapR (rec .sObjectReturn) (← n.csByK "sobject_return")
  .ok (bwcp n [t "RETURNING", groupIndent (.concat [.softline, intersperse docs (.after .softline)])])

/-- `SObjectReturn` and `SObjectReturnQuery` (src/data_model.rs 4080-4175). -/
def sObjectReturn (rec : Rec) (n : Loc) : R Prog := do
  assertCheck n "sobject_return"
  let query ← (match n.tryCByK "selected_fields" with
    | none => .ok []
    | some s => do
      let fields ← mapR (rec .selectableExpression) s.childrenVec
      let using_ ← optR (n.tryCByK "using_clause") (rec .usingClause)
      let where_ ← optR (n.tryCByK "where_clause") (rec .whereClause)
      let orderBy ← optR (n.tryCByK "order_by_clause") (rec .orderByClause)
      let limit ← optR (n.tryCByK "limit_clause") (rec .limitClause)
      let offset ← optR (n.tryCByK "offset_clause") (rec .offsetClause)
      .ok [bwcp s [groupSurround ([intersperse fields (.after .softline)] ++ opt using_ ++ opt where_ ++ opt orderBy ++
        opt limit ++ opt offset) (.after .softline) (.sAfter "(" .maybeline) (.s ")")]])
  let ident ← rec .valueNode (← n.cByK "identifier")
  .ok (bwcp n ([ident] ++ query))

/-- `SoqlQueryBody` (src/data_model.rs 4177-4280). -/
def soqlQueryBody (rec : Rec) (n : Loc) : R Prog := do
  assertCheck n "soql_query_body"
  let where_ ← optR (n.tryCByN "where_clause") (rec .whereClause)
  let with_ ← optR (n.tryCByN "with_clause") (rec .soqlWithClause)
  let groupBy ← optR (n.tryCByN "group_by_clause") (rec .groupByClause)
  let orderBy ← optR (n.tryCByN "order_by_clause") (rec .orderByClause)
  let limit ← optR (n.tryCByN "limit_clause") (rec .limitClause)
  let offset ← optR (n.tryCByN "offset_clause") (rec .offsetClause)
  let allRows ← optR (n.tryCByN "all_rows_clause") (rec .allRowsClause)
  let fors ← mapR (rec .forClause) (n.tryCsByK "for_clause")
  let select ← rec .selectClause (← n.cByN "select_clause")
  let from_ ← rec .fromClause (← n.cByN "from_clause")
  .ok (bwcp n [intersperse ([select, from_] ++ opt where_ ++ opt with_ ++ opt groupBy ++ opt orderBy ++ opt limit ++
    opt offset ++ opt allRows ++
    (if fors.isEmpty then [] else [.concat [tR "FOR", intersperse fors (.s " ")]])) (.after .softline)])

/-- `FromClause` (src/data_model.rs 4282-4306). -/
def fromClause (rec : Rec) (n : Loc) : R Prog := do
  assertCheck n "from_clause"
  let c ← rec .storageVariant (← n.firstC)
  .ok (bwcp n [tR "FROM", c])

/-- `StorageAlias` (src/data_model.rs 4308-4335). -/
def storageAlias (rec : Rec) (n : Loc) : R Prog := do
  assertCheck n "storage_alias"
  let s ← rec .storageIdentifier (← n.cByK "storage_identifier")
  let i ← rec .valueNode (← n.cByK "identifier")
  .ok (bwcp n [s, t " ", i])

/-- `LimitClause` (src/data_model.rs 4337-4361). -/
def limitClause (rec : Rec) (n : Loc) : R Prog := do
  assertCheck n "limit_clause"
  let v ← rec .limitValue (← n.firstC)
  .ok (bwcp n [tR "LIMIT", v])

/-- `UpdateClause` (src/data_model.rs 4363-4395). -/
def updateClause (rec : Rec) (n : Loc) : R Prog := do
  let ts ← mapR (rec .valueNode) (← n.csByK "update_type")
  .ok (bwcp n [tR "UPDATE", intersperse ts (.s " ")])

/-- `BoundApexExpression` (src/data_model.rs 4397-4421). -/
def boundApexExpression (rec : Rec) (n : Loc) : R Prog := do
  assertCheck n "bound_apex_expression"
  let e ← rec .expression (← n.firstC)
  .ok (bwcp n [t ":", e])

/-- `SoslUsingClause` (src/data_model.rs 4423-4447). -/
def soslUsingClause (rec : Rec) (n : Loc) : R Prog := do
  assertCheck n "sosl_using_clause"
  let s ← rec .usingSearch (← n.firstC)
  .ok (bwcp n [tR "USING", s])

/-- `UsingSearch` (src/data_model.rs 4449-4476). -/
def usingSearch (n : Loc) : R Prog :=
  if n.kind = "using_phrase_search" then .ok (t "PHRASE SEARCH")
  else if n.kind = "using_advanced_search" then .ok (t "ADVANCED SEARCH")
  else .error .unknownNode

/-- `UsingClause` (src/data_model.rs 4478-4502). -/
def usingClause (rec : Rec) (n : Loc) : R Prog := do
  assertCheck n "using_clause"
  let o ← rec .usingClauseOption (← n.firstC)
  .ok (bwcp n [tR "USING", o])

/-- `UsingClauseOption` (src/data_model.rs 4504-4536). -/
def usingClauseOption (rec : Rec) (n : Loc) : R Prog :=
  dispatch rec [("using_scope_clause", .usingScopeClause), ("using_lookup_clause", .usingLookupClause),
    ("using_listview_clause", .usingListviewClause)] n

/-- `UsingScopeClause` (src/data_model.rs 4538-4562). -/
def usingScopeClause (rec : Rec) (n : Loc) : R Prog := do
  assertCheck n "using_scope_clause"
  let ty ← rec .valueNode (← n.cByK "using_scope_type")
  .ok (bwcp n [tR "SCOPE", ty])

/-- `UsingLookupClause` (src/data_model.rs 4564-4599). -/
def usingLookupClause (rec : Rec) (n : Loc) : R Prog := do
  assertCheck n "using_lookup_clause"
  let f ← rec .dottedIdentifier (← n.cByN "using_lookup_clause")
  let b ← optR (n.tryCByK "using_lookup_bind_clause") (rec .usingLookupBindClause)
  .ok (bwcp n ([tR "LOOKUP", f, t " "] ++ opt b))

/-- `UsingListviewClause` (src/data_model.rs 4601-4625). -/
def usingListviewClause (rec : Rec) (n : Loc) : R Prog := do
  assertCheck n "using_listview_clause"
  let i ← rec .valueNode (← n.cByK "identifier")
  .ok (bwcp n [tR "ListView =", i])

/-- `UsingLookupBindClause` (src/data_model.rs 4627-4662). -/
def usingLookupBindClause (rec : Rec) (n : Loc) : R Prog := do
  assertCheck n "using_lookup_bind_clause"
  let es ← mapR (rec .usingLookupBindExpression) (n.tryCsByK "using_lookup_bind_expression")
  .ok (bwcp n [tR "BIND", intersperse es (.s " ")])

/-- `UsingLookupBindExpression` (src/data_model.rs 4664-4691). -/
def usingLookupBindExpression (rec : Rec) (n : Loc) : R Prog := do
  assertCheck n "using_lookup_bind_expression"
  let f ← rec .valueNode (← n.cByK "field")
  let v ← rec .soqlLiteral (← n.cByN "bound_value")
  .ok (bwcp n [f, tLR "=", v])

/-- `WhereClause` (src/data_model.rs 4693-4721). -/
def whereClause (rec : Rec) (n : Loc) : R Prog := do
  assertCheck n "where_clause"
  let e ← rec .booleanExpression (← n.firstC)
  .ok (bwcp n [groupIndentConcat [t "WHERE", .softline, e]])

/-- `get_comparsion` (src/utility.rs 524-547) with `Comparison`, `ValueComparison`, `ValueComparedWith` and
`SetComparison` (src/enum_def.rs 1343-1379, src/data_model.rs 4751-4775). -/
def comparison (rec : Rec) (n : Loc) : R Prog :=
  match n.tryCByK "value_comparison_operator" with
  | some op => do
    let next ← op.nextNamed
    let v ← (if next.kind = "bound_apex_expression" then rec .boundApexExpression next else rec .soqlLiteral next)
    .ok (.concat [txtLR op.value, v])
  | none =>
    match n.tryCByK "set_comparison_operator" with
    | some op => do
      let next ← op.nextNamed
      let v ← rec .setValue next
      .ok (.concat [txtLR op.value, v])
    | none => .error .unwrapNone

/-- `ComparisonExpression` (src/data_model.rs 4723-4749). -/
def comparisonExpression (rec : Rec) (n : Loc) : R Prog := do
  assertCheck n "comparison_expression"
  let v ← rec .valueExpression (← n.firstC)
  let c ← rec .comparison n
  .ok (bwcp n [v, c])

/-- `ComparableList` (src/data_model.rs 4777-4810). -/
def comparableList (rec : Rec) (n : Loc) : R Prog := do
  let vs ← mapR (rec .comparableListValue) n.childrenVec
  .ok (bwcp n [parenList vs])

/-- `OrderByClause` (src/data_model.rs 4812-4846). -/
def orderByClause (rec : Rec) (n : Loc) : R Prog := do
  assertCheck n "order_by_clause"
  let es ← mapR (rec .orderExpression) (← n.csByK "order_expression")
  .ok (bwcp n [tR "ORDER BY", intersperse es (.s " ")])

/-- A document preceded by a space. -/
def spaced : Option Prog → List Prog
  | none => []
  | some p => [t " ", p]

/-- `OrderExpression` (src/data_model.rs 4848-4891). -/
def orderExpression (rec : Rec) (n : Loc) : R Prog := do
  assertCheck n "order_expression"
  let direction ← optR (n.tryCByK "order_direction") (rec .valueNode)
  let nulls ← optR (n.tryCByK "order_null_direction") (rec .valueNode)
  let v ← rec .valueExpression (← n.firstC)
  .ok (bwcp n ([v] ++ spaced direction ++ spaced nulls))

/-- `SubQuery` (src/data_model.rs 4893-4920). -/
def subQuery (rec : Rec) (n : Loc) : R Prog := do
  let b ← rec .soqlQueryBody (← n.cByK "soql_query_body")
  .ok (bwcp n [parenList [b]])

/-- `MapCreationExpression` (src/data_model.rs 4922-4949). -/
def mapCreationExpression (rec : Rec) (n : Loc) : R Prog := do
  assertCheck n "map_creation_expression"
  let ty ← rec .simpleType (← n.cByN "type")
  let v ← rec .mapInitializer (← n.cByN "value")
  .ok (bwcp n [tR "new", ty, v])

/-- `MapInitializer` (src/data_model.rs 4951-4986). -/
def mapInitializer (rec : Rec) (n : Loc) : R Prog := do
  assertCheck n "map_initializer"
  let is ← mapR (rec .mapKeyInitializer) n.childrenVec
  .ok (bwcp n [groupSurround is (.after .softline) (.sAfter "{" .softline) (.before .softline "}")])

/-- `MapKeyInitializer` (src/data_model.rs 4988-5020). -/
def mapKeyInitializer (rec : Rec) (n : Loc) : R Prog := do
  assertCheck n "map_key_initializer"
  match n.childrenVec with
  | [a, b] =>
    let e1 ← rec .expression a
    let e2 ← rec .expression b
    .ok (bwcp n [e1, tLR "=>", e2])
  | _ => .error .missingChild

/-- `GroupByClause` and `GroupByExpression` (src/data_model.rs 5022-5095): the last `HAVING` clause is used. -/
def groupByClause (rec : Rec) (n : Loc) : R Prog := do
  assertCheck n "group_by_clause"
  if n.childrenVec.all (fun c => c.kind ∈ ["field_identifier", "function_expression", "having_clause"]) then
    let es ← mapR (dispatch rec [("field_identifier", .fieldIdentifier), ("function_expression", .functionExpression)])
      (n.childrenVec.filter (fun c => c.kind != "having_clause"))
    let hs ← mapR (rec .havingClause) (n.childrenVec.filter (fun c => c.kind == "having_clause"))
    .ok (bwcp n ([tR "GROUP BY", intersperse es (.s " ")] ++
      (match hs.getLast? with
       | some h => [.softline, h]
       | none => [])))
  else .error .unknownNode

/-- `HavingClause` (src/data_model.rs 5097-5125). -/
def havingClause (rec : Rec) (n : Loc) : R Prog := do
  assertCheck n "having_clause"
  let e ← rec .booleanExpression (← n.firstC)
  .ok (bwcp n [groupIndentConcat [t "HAVING", .softline, e]])

/-- `SoslWithClause` (src/data_model.rs 5127-5151). -/
def soslWithClause (rec : Rec) (n : Loc) : R Prog := do
  assertCheck n "with_clause"
  let ty ← rec .soslWithType (← n.cByK "with_type")
  .ok (bwcp n [groupConcat [tR "WITH", ty]])

/-- `SoqlWithClause` (src/data_model.rs 5153-5177). -/
def soqlWithClause (rec : Rec) (n : Loc) : R Prog := do
  assertCheck n "with_clause"
  let ty ← rec .soqlWithType (← n.cByK "with_type")
  .ok (bwcp n [tR "WITH", ty])

/-- `SoqlWithTypeVariant` (src/data_model.rs 5179-5214). -/
def soqlWithTypeVariant (rec : Rec) (n : Loc) : R Prog :=
  if n.namedChildren.isEmpty then rec .valueNode n
  else do
    let child ← n.firstC
    if child.kind = "with_user_id_type" then
      let v ← rec .valueNode (← child.cByK "string_literal")
      .ok (.concat [tR "UserId =", v])
    else .error .unknownNode

/-- `SoslWithType` (src/data_model.rs 5216-5278). -/
def soslWithType (rec : Rec) (n : Loc) : R Prog := do
  assertCheck n "with_type"
  let child ← n.firstC
  if child.kind = "with_highlight" then .ok (t "HIGHLIGHT")
  else dispatch rec [("with_data_cat_expression", .withDataCatExpression),
    ("with_division_expression", .withDivisionExpression), ("with_snippet_expression", .withSnippetExpression),
    ("with_network_expression", .withNetworkExpression), ("with_metadata_expression", .withMetadataExpression),
    ("with_spell_correction_expression", .withSpellCorrectionExpression),
    ("with_pricebook_expression", .withPriceBookExpression)] child

/-- `WithDataCatExpression` (src/data_model.rs 5280-5315). -/
def withDataCatExpression (rec : Rec) (n : Loc) : R Prog := do
  assertCheck n "with_data_cat_expression"
  let fs ← mapR (rec .withDataCatFilter) (← n.csByK "with_data_cat_filter")
  .ok (bwcp n [t "DATA CATEGORY", .indent .softline, .indent (intersperse fs (.before .softline "AND "))])

/-- `WithDataCatFilter` (src/data_model.rs 5317-5371). -/
def withDataCatFilter (rec : Rec) (n : Loc) : R Prog := do
  assertCheck n "with_data_cat_filter"
  let all ← n.csByK "identifier"
  match all with
  | i :: j :: js =>
    let ident ← rec .valueNode i
    let idents ← mapR (rec .valueNode) (j :: js)
    let ty ← rec .valueNodeUpperCase (← n.cByK "with_data_cat_filter_type")
    .ok (bwcp n [ident, t " ", ty, t " ",
      match idents with
      | [d] => d
      | ds => parenList ds])
  | _ => .error .missingChild

/-- `WithDivisionExpression` (src/data_model.rs 5373-5404). -/
def withDivisionExpression (rec : Rec) (n : Loc) : R Prog := do
  assertCheck n "with_division_expression"
  let child ← n.firstC
  if child.kind = "bound_apex_expression" then
    let b ← rec .boundApexExpression child
    .ok (.concat [t "DIVISION = ", b])
  else if child.kind = "string_literal" then .ok (.concat [t "DIVISION = ", .txt child.value])
  else .error .unknownNode

/-- `WithSnippetExpression` (src/data_model.rs 5406-5437). -/
def withSnippetExpression (rec : Rec) (n : Loc) : R Prog := do
  assertCheck n "with_snippet_expression"
  let i ← optR (n.tryCByK "int") (rec .valueNode)
  .ok (bwcp n ([t "SNIPPET"] ++
    (match i with
     | some d => [t "(TARGET_LENGTH = ", d, t ")"]
     | none => [])))

/-- `WithNetworkExpression` (src/data_model.rs 5439-5463). -/
def withNetworkExpression (rec : Rec) (n : Loc) : R Prog := do
  assertCheck n "with_network_expression"
  let c ← rec .comparison n
  .ok (bwcp n [t "NETWORK", c])

/-- `WithMetadataExpression` (src/data_model.rs 5465-5489). -/
def withMetadataExpression (rec : Rec) (n : Loc) : R Prog := do
  assertCheck n "with_metadata_expression"
  let s ← rec .valueNode (← n.cByK "string_literal")
  .ok (bwcp n [t "METADATA = ", s])

/-- `WithSpellCorrectionExpression` (src/data_model.rs 5491-5515). -/
def withSpellCorrectionExpression (rec : Rec) (n : Loc) : R Prog := do
  assertCheck n "with_spell_correction_expression"
  let b ← rec .valueNode (← n.cByK "boolean")
  .ok (bwcp n [t "SPELL_CORRECTION = ", b])

/-- `WithPriceBookExpression` (src/data_model.rs 5517-5541). -/
def withPriceBookExpression (rec : Rec) (n : Loc) : R Prog := do
  assertCheck n "with_pricebook_expression"
  let s ← rec .valueNode (← n.cByK "string_literal")
  .ok (bwcp n [tR "PriceBookId =", s])

/-- `DottedIdentifier` (src/data_model.rs 5543-5575). -/
def dottedIdentifier (rec : Rec) (n : Loc) : R Prog := do
  assertCheck n "dotted_identifier"
  let is ← mapR (rec .valueNode) (← n.csByK "identifier")
  .ok (bwcp n [intersperse is (.s ".")])

/-- `ValueNode` (src/data_model.rs 5579-5600). -/
def valueNode (n : Loc) : R Prog := .ok (bwcp n [.txt n.value])

/-- `ValueNodeLowerCase` (src/data_model.rs 5602-5623). -/
def valueNodeLowerCase (n : Loc) : R Prog := .ok (bwcp n [.txt (toLower n.value)])

/-- `ValueNodeUpperCase` (src/data_model.rs 5625-5646). -/
def valueNodeUpperCase (n : Loc) : R Prog := .ok (bwcp n [.txt (toUpper n.value)])

/-- `ExpressionStatement` (src/data_model.rs 5648-5671). -/
def expressionStatement (rec : Rec) (n : Loc) : R Prog := do
  assertCheck n "expression_statement"
  let e ← rec .expression (← n.firstC)
  .ok (bwcp n [e])

/-- `SafeNavigationOperator` (src/data_model.rs 5673-5694). -/
def safeNavigationOperator (n : Loc) : R Prog := do
  assertCheck n "safe_navigation_operator"
  .ok (bwcp n [t "?."])

/-- `CountExpression` (src/data_model.rs 5696-5720). -/
def countExpression (rec : Rec) (n : Loc) : R Prog := do
  assertCheck n "count_expression"
  let f ← rec .valueNode (← n.cByN "function_name")
  .ok (bwcp n [f, t "()"])

/-- Wrappers around a variant made from the same node: `FunctionExpression`, `FieldIdentifier`, `GeoLocationType`,
`SelectClause`, `StorageIdentifier` (src/data_model.rs 5722-5845), `SoqlWithType` (5948-5971), `UpdateExpression`
(6021-6044), `DmlExpression` (6046-6069). -/
def wrapper (rec : Rec) (kind : String) (variant : Cls) (n : Loc) : R Prog := do
  assertCheck n kind
  let v ← rec variant n
  .ok (bwcp n [v])

/-- `ForClause` (src/data_model.rs 5973-5996). -/
def forClause (rec : Rec) (n : Loc) : R Prog := do
  assertCheck n "for_clause"
  let ty ← rec .valueNode (← n.cByK "for_type")
  .ok (bwcp n [ty])

/-- `AllRowsClause` (src/data_model.rs 5998-6019). -/
def allRowsClause (n : Loc) : R Prog := do
  assertCheck n "all_rows_clause"
  .ok (bwcp n [t "ALL ROWS"])

/-- `DmlType` (src/data_model.rs 6071-6094). -/
def dmlType (rec : Rec) (n : Loc) : R Prog := do
  assertCheck n "dml_type"
  let v ← rec .dmlTypeVariant (← n.firstC)
  .ok (bwcp n [v])

/-! ### Conditions of queries (src/enum_def.rs 1155-1249, src/data_model.rs 5847-5946) -/

/-- `BooleanExpression::operator` (src/enum_def.rs 1173-1180) of the expression made from a node. -/
def boolOperator (n : Loc) : Option String :=
  if n.kind = "and_expression" then some "AND"
  else if n.kind = "or_expression" then some "OR"
  else if n.kind = "not_expression" then some "NOT"
  else none

/-- `ConditionExpression::should_parenthesize` (src/enum_def.rs 1237-1241). -/
def shouldParenthesize (parentOp childOp : Option String) : Bool :=
  match parentOp, childOp with
  | some p, some c => !(p == c)
  | _, _ => true

/-- `BooleanExpression::new` and `build_with_parent` (src/enum_def.rs 1164-1193).  `Condition` of a comparison goes
through `ConditionExpression::Comparison`; that detour is left out.  For a kind which is neither a connective nor a
comparison `BooleanExpression::new` and `ConditionExpression::new` call each other. -/
def booleanExpression (rec : Rec) (n : Loc) : R Prog :=
  if n.kind = "and_expression" then rec .andExpression n
  else if n.kind = "or_expression" then rec .orExpression n
  else if n.kind = "not_expression" then rec .notExpression n
  else if n.kind = "comparison_expression" then rec .comparisonExpression n
  else rec .conditionExpression n

/-- `ConditionExpression::new` and `build_with_parent` (src/enum_def.rs 1210-1235). -/
def conditionExpression (rec : Rec) (parentOp : Option String) (n : Loc) : R Prog :=
  if n.kind = "comparison_expression" then rec .comparisonExpression n
  else do
    let doc ← rec .booleanExpression n
    .ok (if shouldParenthesize parentOp (boolOperator n) then .concat [t "(", doc, t ")"] else doc)

/-- `AndExpression` (src/data_model.rs 5847-5882). -/
def andExpression (rec : Rec) (n : Loc) : R Prog := do
  assertCheck n "and_expression"
  let es ← mapR (conditionExpression rec (some "AND")) n.childrenVec
  .ok (bwcp n [intersperse es (.before .softline "AND ")])

/-- `OrExpression` (src/data_model.rs 5884-5919). -/
def orExpression (rec : Rec) (n : Loc) : R Prog := do
  assertCheck n "or_expression"
  let es ← mapR (conditionExpression rec (some "OR")) n.childrenVec
  .ok (bwcp n [intersperse es (.before .softline "OR ")])

/-- `NotExpression` (src/data_model.rs 5921-5946). -/
def notExpression (rec : Rec) (n : Loc) : R Prog := do
  assertCheck n "not_expression"
  let e ← conditionExpression rec (some "NOT") (← n.firstC)
  .ok (bwcp n [.concat [tR "NOT", e]])

end Prog.New
end Afmt
