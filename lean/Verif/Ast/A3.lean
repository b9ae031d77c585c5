import Verif.Ast.A2

/-!
# src/data_model.rs 2061-3826
-/

namespace Afmt
namespace Prog.New

/-- `DoStatement` (src/data_model.rs 2061-2090). -/
def doStatement (rec : Rec) (n : Loc) : R Prog := do
  assertCheck n "do_statement"
  let body ← rec .block (← n.cByN "body")
  let condition ← rec .parenthesizedExpression (← n.cByN "condition")
  .ok (bwcp n [tR "do", body, tLR "while", condition])

/-- `WhileStatement` (src/data_model.rs 2092-2126). -/
def whileStatement (rec : Rec) (n : Loc) : R Prog := do
  assertCheck n "while_statement"
  let condition ← rec .parenthesizedExpression (← n.cByN "condition")
  let bodyNode ← n.cByN "body"
  let body ← rec .statement bodyNode
  .ok (bwc n ([tR "while", condition] ++ (if bodyNode.kind = ";" then [] else [t " ", body])))

/-- `UnaryExpression` (src/data_model.rs 2128-2155). -/
def unaryExpression (rec : Rec) (n : Loc) : R Prog := do
  assertCheck n "unary_expression"
  let operator ← n.cvalueByN "operator"
  let operand ← rec .expression (← n.cByN "operand")
  .ok (bwcp n [.txt operator, operand])

/-- `FieldAccess::get_property_navigation` (src/data_model.rs 2186-2194). -/
def fieldNavigation (rec : Rec) (n : Loc) : R Prog :=
  match n.tryCByK "safe_navigation_operator" with
  | some s => rec .safeNavigationOperator s
  | none => .ok (t ".")

/-- `FieldAccess` (src/data_model.rs 2157-2224). -/
def fieldAccess (rec : Rec) (n : Loc) : R Prog := do
  assertCheck n "field_access"
  let object ← rec .objectExpression (← n.cByN "object")
  let nav ← fieldNavigation rec n
  let field ← rec .fieldOption (← n.cByN "field")
  let ctx ← buildChainingContext n
  .ok (bwcp n [chainDoc ctx object [nav, field]])

/-- `FieldOption` (src/data_model.rs 2226-2252). -/
def fieldOption (rec : Rec) (n : Loc) : R Prog :=
  if n.kind = "this" then rec .this n else rec .valueNode n

/-- `EnumDeclaration` (src/data_model.rs 2254-2294). -/
def enumDeclaration (rec : Rec) (n : Loc) : R Prog := do
  let modifiers ← optR (n.tryCByK "modifiers") (rec .modifiers)
  let interface ← optR (n.tryCByK "interfaces") (rec .interface)
  let name ← rec .valueNode (← n.cByN "name")
  let body ← rec .enumBody (← n.cByN "body")
  .ok (bwcp n (opt modifiers ++ [tR "enum", name, t " "] ++ opt interface ++ [body]))

/-- `EnumBody` (src/data_model.rs 2296-2341).  An empty body returns before its post comments are printed. -/
def enumBody (rec : Rec) (n : Loc) : R Prog := do
  assertCheck n "enum_body"
  let cs ← mapR (rec .enumConstant) (n.tryCsByK "enum_constant")
  .ok (.concat [.pre n.id, .ifDangling n.id (danglingBracket n.id)
    (if cs.isEmpty then .concat [t "{", .nl, t "}"]
     else .concat [groupSurround cs (.after .nl) (.sAfter "{" .nl) (.before .nl "}"), .post n.id])])

/-- `EnumConstant` (src/data_model.rs 2343-2372). -/
def enumConstant (rec : Rec) (n : Loc) : R Prog := do
  let modifiers ← optR (n.tryCByK "modifiers") (rec .modifiers)
  let name ← rec .valueNode (← n.cByN "name")
  .ok (bwcp n (opt modifiers ++ [name]))

/-- `DmlExpressionVariant` (src/data_model.rs 2374-2491).  The variant is chosen by the kind of the child of the
`dml_type` node. -/
def dmlExpressionVariant (rec : Rec) (n : Loc) : R Prog := do
  let securityMode ← optR (n.tryCByK "dml_security_mode") (rec .dmlSecurityMode)
  let target ← rec .expression (← n.cByN "target")
  let typeNode ← n.cByK "dml_type"
  let dmlType ← rec .dmlType typeNode
  let kindNode ← typeNode.firstC
  if kindNode.kind = "merge" then
    let mergeWith ← rec .expression (← n.cByN "merge_with")
    .ok (.concat ([dmlType, t " "] ++
      (match securityMode with
       | some s => [s, t " "]
       | none => []) ++
      [.group (.indent (intersperse [target, mergeWith] (.after .softline))), nil]))
  else if kindNode.kind = "upsert" then
    let key ← optR (n.tryCByN "upsert_key") (rec .unannotatedType)
    .ok (.concat [dmlType, t " ",
      .group (.indent (intersperse (opt securityMode ++ [target] ++ opt key) (.after .softline))), nil])
  else
    .ok (.concat ([dmlType, t " "] ++
      (match securityMode with
       | some s => [s, t " "]
       | none => []) ++
      [target, nil]))

/-- `DmlSecurityMode` (src/data_model.rs 2493-2518). -/
def dmlSecurityMode (n : Loc) : R Prog := do
  let child ← n.firstC
  if child.kind = "user" ∨ child.kind = "system" then .ok (.concat [tR "as", .txt child.value])
  else .error .unknownNode

/-- `DmlTypeVariant` (src/data_model.rs 2520-2557). -/
def dmlTypeVariant (n : Loc) : R Prog :=
  if n.kind ∈ ["insert", "update", "delete", "undelete", "merge", "upsert"] then .ok (t n.kind)
  else .error .unknownNode

/-- `ArrayAccess` (src/data_model.rs 2559-2587). -/
def arrayAccess (rec : Rec) (n : Loc) : R Prog := do
  assertCheck n "array_access"
  let array ← rec .primaryExpression (← n.cByN "array")
  let index ← rec .expression (← n.cByN "index")
  .ok (bwcp n [array, t "[", index, t "]"])

/-- `ArrayCreationExpression` and `ArrayCreationVariant` (src/data_model.rs 2589-2685). -/
def arrayCreationExpression (rec : Rec) (n : Loc) : R Prog := do
  assertCheck n "array_creation_expression"
  let variant ← (match n.tryCByN "value", n.tryCByN "dimensions" with
    | none, _ => do
      let exprs ← mapR (rec .dimensionsExpr) (← n.csByK "dimensions_expr")
      let dims ← optR (n.tryCByK "dimensions") (rec .dimensions)
      .ok (exprs ++ (match dims with
        | some d => [t " ", d]
        | none => []))
    | some v, none => do
      let value ← rec .arrayInitializer v
      .ok [value]
    | some v, some d => do
      let value ← rec .arrayInitializer v
      let dims ← rec .dimensions d
      .ok [dims, value])
  let type_ ← rec .simpleType (← n.cByN "type")
  .ok (bwcp n [tR "new", type_, .concat variant])

/-- `Dimensions` (src/data_model.rs 2687-2708): always one pair of brackets. -/
def dimensions (n : Loc) : R Prog := do
  assertCheck n "dimensions"
  .ok (bwcp n [t "[]"])

/-- `DimensionsExpr` (src/data_model.rs 2710-2735). -/
def dimensionsExpr (rec : Rec) (n : Loc) : R Prog := do
  assertCheck n "dimensions_expr"
  let exp ← rec .expression (← n.firstC)
  .ok (bwcp n [t "[", exp, t "]"])

/-- `ReturnStatement` (src/data_model.rs 2737-2772). -/
def returnStatement (rec : Rec) (n : Loc) : R Prog := do
  assertCheck n "return_statement"
  match n.tryFirstC with
  | none => .ok (withCommentsAndPuncAttached n.id (Punc.fromInner n) [t "return"])
  | some e =>
    let exp ← rec .expression e
    .ok (bwcp n [t "return", t " ", exp])

/-- `TernaryExpression` (src/data_model.rs 2774-2810). -/
def ternaryExpression (rec : Rec) (n : Loc) : R Prog := do
  assertCheck n "ternary_expression"
  let condition ← rec .expression (← n.cByN "condition")
  let consequence ← rec .expression (← n.cByN "consequence")
  let alternative ← rec .expression (← n.cByN "alternative")
  .ok (bwcp n [groupConcat [condition, .softline, tR "?", consequence, .softline, tR ":", alternative]])

/-- `TryStatement` and `TryStatementTail` (src/data_model.rs 2812-2879). -/
def tryStatement (rec : Rec) (n : Loc) : R Prog := do
  assertCheck n "try_statement"
  let tail ← (match n.tryCByK "finally_clause" with
    | some f => do
      let catches ← mapR (rec .catchClause) (n.tryCsByK "catch_clause")
      let fin ← rec .finallyClause f
      .ok [.concat catches, fin]
    | none => do
      let catches ← mapR (rec .catchClause) (← n.csByK "catch_clause")
      .ok [.concat catches])
  let body ← rec .block (← n.cByN "body")
  .ok (bwcp n [tR "try", body, .concat tail])

/-- `CatchClause` (src/data_model.rs 2881-2911). -/
def catchClause (rec : Rec) (n : Loc) : R Prog := do
  assertCheck n "catch_clause"
  let param ← rec .formalParameter (← n.cByK "formal_parameter")
  let body ← rec .block (← n.cByN "body")
  .ok (bwcp n [tLR "catch", t "(", param, tR ")", body])

/-- `FinallyClause` (src/data_model.rs 2913-2937). -/
def finallyClause (rec : Rec) (n : Loc) : R Prog := do
  assertCheck n "finally_clause"
  let body ← rec .block (← n.cByK "block")
  .ok (bwcp n [tLR "finally", body])

/-- `StaticInitializer` (src/data_model.rs 2939-2961). -/
def staticInitializer (rec : Rec) (n : Loc) : R Prog := do
  let block ← rec .block (← n.cByK "block")
  .ok (bwcp n [tR "static", block])

/-- `InterfaceDeclaration` (src/data_model.rs 2963-3017). -/
def interfaceDeclaration (rec : Rec) (n : Loc) : R Prog := do
  assertCheck n "interface_declaration"
  let modifiers ← optR (n.tryCByK "modifiers") (rec .modifiers)
  let typeParameters ← optR (n.tryCByK "type_parameters") (rec .typeParameters)
  let extends_ ← optR (n.tryCByK "extends_interfaces") (rec .extendsInterface)
  let name ← rec .valueNode (← n.cByN "name")
  let body ← rec .interfaceBody (← n.cByN "body")
  .ok (bwcp n (opt modifiers ++ [tR "interface", name] ++ opt typeParameters ++ opt extends_ ++ [t " ", body]))

/-- `ExtendsInterface` (src/data_model.rs 3019-3042). -/
def extendsInterface (rec : Rec) (n : Loc) : R Prog := do
  let l ← rec .typeList (← n.cByK "type_list")
  .ok (bwcp n [.concat [tLR "extends", l]])

/-- `InterfaceBody` (src/data_model.rs 3044-3094). -/
def interfaceBody (cfg : Cfg) (rec : Rec) (n : Loc) : R Prog := do
  assertCheck n "interface_body"
  let members ← mapR (bodyMember cfg rec .interfaceMember) n.childrenVec
  .ok (bracketBody n members)

/-- `InterfaceMember` (src/data_model.rs 3058-3070, 3096-3126). -/
def interfaceMember (rec : Rec) (n : Loc) : R Prog :=
  dispatch rec [("constant_declaration", .constantDeclaration), ("enum_declaration", .enumDeclaration),
    ("method_declaration", .methodDeclaration), ("class_declaration", .classDeclaration),
    ("interface_declaration", .interfaceDeclaration)] n

/-- `ConstantDeclaration` (src/data_model.rs 3128-3170). -/
def constantDeclaration (rec : Rec) (n : Loc) : R Prog := do
  let modifiers ← optR (n.tryCByK "modifiers") (rec .modifiers)
  let declarators ← mapR (rec .variableDeclarator) (← n.csByN "declarator")
  let type_ ← rec .unannotatedType (← n.cByN "type")
  .ok (bwcp n (opt modifiers ++ [type_, t " ", .group (intersperse declarators (.after .softline))]))

/-- `AccessorList` (src/data_model.rs 3172-3225). -/
def accessorList (rec : Rec) (n : Loc) : R Prog := do
  assertCheck n "accessor_list"
  let nodes ← n.csByK "accessor_declaration"
  let docs ← mapR (rec .accessorDeclaration) nodes
  .ok (bwcp n
    [if nodes.any (fun a => (a.tryCByN "body").isSome) then
      .concat [t "{", .indent .nl, .indent (intersperse docs (.after .nl)), .nl, t "}"]
     else groupSurround docs (.after .softline) (.sAfter "{" .softline) (.before .softline "}")])

/-- `AccessorDeclaration` (src/data_model.rs 3227-3262). -/
def accessorDeclaration (rec : Rec) (n : Loc) : R Prog := do
  assertCheck n "accessor_declaration"
  let modifiers ← optR (n.tryCByK "modifiers") (rec .modifiers)
  let accessor ← n.cvalueByN "accessor"
  let body ← optR (n.tryCByN "body") (rec .block)
  .ok (withCommentsAndPunc n.id (Punc.fromInner n) (opt modifiers ++ [.txt accessor] ++
    (match body with
     | some b => [t " ", b]
     | none => [])))

/-- `CastExpression` (src/data_model.rs 3264-3292). -/
def castExpression (rec : Rec) (n : Loc) : R Prog := do
  assertCheck n "cast_expression"
  let type_ ← rec .type (← n.cByN "type")
  let value ← rec .expression (← n.cByN "value")
  .ok (bwcp n [t "(", type_, tR ")", value])

/-- `ThrowStatement` (src/data_model.rs 3294-3318). -/
def throwStatement (rec : Rec) (n : Loc) : R Prog := do
  assertCheck n "throw_statement"
  let exp ← rec .expression (← n.firstC)
  .ok (bwcp n [t "throw ", exp])

/-- `break` and `continue`: with an identifier or with an inner semicolon. -/
def jump (rec : Rec) (n : Loc) (kw : String) : R Prog :=
  match n.tryCByK "identifier" with
  | none => .ok (withCommentsAndPuncAttached n.id (Punc.fromInner n) [t kw])
  | some i => do
    let ident ← rec .valueNode i
    .ok (bwcp n [t kw, t " ", ident])

/-- `BreakStatement` (src/data_model.rs 3320-3359). -/
def breakStatement (rec : Rec) (n : Loc) : R Prog := do
  assertCheck n "break_statement"
  jump rec n "break"

/-- `ContinueStatement` (src/data_model.rs 3361-3400). -/
def continueStatement (rec : Rec) (n : Loc) : R Prog := do
  assertCheck n "continue_statement"
  jump rec n "continue"

/-- `SwitchExpression` (src/data_model.rs 3402-3431). -/
def switchExpression (rec : Rec) (n : Loc) : R Prog := do
  assertCheck n "switch_expression"
  let condition ← rec .expression (← n.cByN "condition")
  let body ← rec .switchBlock (← n.cByN "body")
  .ok (bwcp n [groupIndentConcat [t "switch on", .softline, condition], t " ", body])

/-- `SwitchBlock` (src/data_model.rs 3433-3468). -/
def switchBlock (rec : Rec) (n : Loc) : R Prog := do
  assertCheck n "switch_block"
  let rules ← mapR (rec .switchRule) (← n.csByK "switch_rule")
  .ok (bwcp n [surround rules (.sAfter "" .nl) (.sAfter "{" .nl) (.before .nl "}")])

/-- `SwitchRule` (src/data_model.rs 3470-3497). -/
def switchRule (rec : Rec) (n : Loc) : R Prog := do
  assertCheck n "switch_rule"
  let label ← rec .switchLabel (← n.cByK "switch_label")
  let block ← rec .block (← n.cByK "block")
  .ok (bwcp n [label, t " ", block])

/-- `SwitchLabel` (src/data_model.rs 3499-3543): the bucket of the label itself is never printed. -/
def switchLabel (rec : Rec) (n : Loc) : R Prog := do
  assertCheck n "switch_label"
  if n.childrenVec.isEmpty then .ok (.concat [tR "when", t "else"])
  else match n.tryCByK "when_sobject_type" with
    | some w => do
      let d ← rec .whenSObjectType w
      .ok (.concat [tR "when", d])
    | none => do
      let es ← mapR (rec .expression) n.childrenVec
      .ok (.concat [tR "when", .group (.indent (intersperse es (.after .softline)))])

/-- `WhenSObjectType` (src/data_model.rs 3545-3585): the last identifier and the last other child are used. -/
def whenSObjectType (rec : Rec) (n : Loc) : R Prog := do
  let others := n.childrenVec.filter (fun c => c.kind != "identifier")
  let types ← mapR (rec .unannotatedType) others
  match types.getLast?, (n.childrenVec.filter (fun c => c.kind == "identifier")).getLast? with
  | some ty, some i => .ok (bwcp n [ty, t " ", .txt i.value])
  | _, _ => .error .unwrapNone

/-- `InstanceOfExpression` (src/data_model.rs 3587-3614). -/
def instanceOfExpression (rec : Rec) (n : Loc) : R Prog := do
  assertCheck n "instanceof_expression"
  let left ← rec .expression (← n.cByN "left")
  let right ← rec .type (← n.cByN "right")
  .ok (bwcp n [left, tLR "instanceof", right])

/-- `VersionExpression` (src/data_model.rs 3616-3645). -/
def versionExpression (rec : Rec) (n : Loc) : R Prog := do
  assertCheck n "version_expression"
  let num ← optR (n.tryCByN "version_num") (rec .valueNode)
  .ok (bwcp n [t "Package.Version.", num.getD (t "Request")])

/-- `JavaFieldAccess` (src/data_model.rs 3647-3671). -/
def javaFieldAccess (rec : Rec) (n : Loc) : R Prog := do
  assertCheck n "java_field_access"
  let f ← rec .fieldAccess (← n.cByK "field_access")
  .ok (bwcp n [t "java:", f])

/-- `JavaType` (src/data_model.rs 3673-3698). -/
def javaType (rec : Rec) (n : Loc) : R Prog := do
  let s ← rec .scopedTypeIdentifier (← n.cByK "scoped_type_identifier")
  .ok (bwcp n [t "java:", s])

/-- `ArrayType` (src/data_model.rs 3700-3726). -/
def arrayType (rec : Rec) (n : Loc) : R Prog := do
  assertCheck n "array_type"
  let element ← rec .unannotatedType (← n.cByN "element")
  let dims ← rec .dimensions (← n.cByN "dimensions")
  .ok (bwcp n [element, dims])

/-- `TriggerDeclaration` (src/data_model.rs 3728-3776). -/
def triggerDeclaration (rec : Rec) (n : Loc) : R Prog := do
  assertCheck n "trigger_declaration"
  let events ← mapR (rec .triggerEvent) (← n.csByK "trigger_event")
  let name ← rec .valueNode (← n.cByN "name")
  let object ← rec .valueNode (← n.cByN "object")
  let body ← rec .triggerBody (← n.cByN "body")
  .ok (bwcp n [tR "trigger", name, tLR "on", object, parenList events, t " ", body])

/-- `TriggerEvent` (src/data_model.rs 3778-3801). -/
def triggerEvent (rec : Rec) (n : Loc) : R Prog := do
  assertCheck n "trigger_event"
  let e ← rec .triggerEventVariant (← n.firstC)
  .ok (bwcp n [e])

/-- `TriggerBody` (src/data_model.rs 3803-3826). -/
def triggerBody (rec : Rec) (n : Loc) : R Prog := do
  assertCheck n "trigger_body"
  let block ← rec .block (← n.cByK "block")
  .ok (bwcp n [block])

end Prog.New
end Afmt
