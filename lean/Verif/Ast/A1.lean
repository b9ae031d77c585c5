import Verif.Ast.Basic

/-!
# src/data_model.rs 24-1142
-/

namespace Afmt
namespace Prog.New

/-- `Root` (src/data_model.rs 23-64). -/
def root (cfg : Cfg) (rec : Rec) (n : Loc) : R Prog := do
  assertCheck n "parser_output"
  let members ← mapR (bodyMember cfg rec .rootMember) n.childrenVec
  .ok (.ifDangling n.id (.rootDangling n.id) (.concat [intersperseBody members, .nl]))

/-- `ClassDeclaration` (src/data_model.rs 66-132). -/
def classDeclaration (rec : Rec) (n : Loc) : R Prog := do
  assertCheck n "class_declaration"
  let modifiers ← optR (n.tryCByK "modifiers") (rec .modifiers)
  let name ← rec .valueNode (← n.cByN "name")
  let typeParameters ← optR (n.tryCByK "type_parameters") (rec .typeParameters)
  let superclass ← optR (n.tryCByK "superclass") (rec .superClass)
  let interface ← optR (n.tryCByK "interfaces") (rec .interface)
  let body ← rec .classBody (← n.cByN "body")
  .ok (bwcp n (opt modifiers ++
    [groupIndentConcat ([tR "class", name] ++ opt typeParameters ++
      (if superclass.isSome || interface.isSome then [.softline] else []) ++
      opt superclass ++ (if superclass.isSome && interface.isSome then [t " "] else []) ++
      opt interface ++ [t " "]),
     body]))

/-- `MethodDeclaration` (src/data_model.rs 134-179). -/
def methodDeclaration (rec : Rec) (n : Loc) : R Prog := do
  assertCheck n "method_declaration"
  let modifiers ← optR (n.tryCByK "modifiers") (rec .modifiers)
  let type_ ← rec .unannotatedType (← n.cByN "type")
  let name ← rec .valueNode (← n.cByN "name")
  let params ← rec .formalParameters (← n.cByN "parameters")
  let body ← optR (n.tryCByN "body") (rec .block)
  .ok (bwcp n (opt modifiers ++ [type_, t " ", name, params] ++
    (match body with
     | some b => [t " ", b]
     | none => [])))

/-- `FormalParameters` (src/data_model.rs 181-216). -/
def formalParameters (rec : Rec) (n : Loc) : R Prog := do
  assertCheck n "formal_parameters"
  let ps ← mapR (rec .formalParameter) (n.tryCsByK "formal_parameter")
  .ok (bwcp n [parenList ps])

/-- `FormalParameter` (src/data_model.rs 218-256). -/
def formalParameter (rec : Rec) (n : Loc) : R Prog := do
  assertCheck n "formal_parameter"
  let modifiers ← optR (n.tryCByK "modifiers") (rec .modifiers)
  let type_ ← rec .unannotatedType (← n.cByN "type")
  let name ← rec .valueNode (← n.cByN "name")
  let dims ← optR (n.tryCByK "dimensions") (rec .dimensions)
  .ok (bwcp n (opt modifiers ++ [type_, t " ", name] ++
    (match dims with
     | some d => [t " ", d]
     | none => [])))

/-- `SuperClass` (src/data_model.rs 258-282). -/
def superClass (rec : Rec) (n : Loc) : R Prog := do
  assertCheck n "superclass"
  let type_ ← rec .type (← n.firstC)
  .ok (bwcp n [tR "extends", type_])

/-- `Modifiers` (src/data_model.rs 284-328). -/
def modifiers (rec : Rec) (n : Loc) : R Prog := do
  assertCheck n "modifiers"
  let annotations ← mapR (rec .annotation) (n.tryCsByK "annotation")
  let mods ← mapR (rec .modifier) (n.tryCsByK "modifier")
  .ok (bwc n (annotations ++
    (if mods.isEmpty then [] else [intersperse mods (.s " "), t " "])))

/-- `Modifier` (src/data_model.rs 330-353). -/
def modifier (rec : Rec) (n : Loc) : R Prog := do
  assertCheck n "modifier"
  let kind ← rec .modifierKind (← n.firstC)
  .ok (bwcp n [kind])

/-- `Annotation` (src/data_model.rs 355-390). -/
def annotation (rec : Rec) (n : Loc) : R Prog := do
  assertCheck n "annotation"
  let arguments ← optR (n.tryCByN "arguments") (rec .annotationArgumentList)
  let name ← rec .valueNode (← n.cByN "name")
  .ok (.concat [bwcp n ([t "@", name] ++ opt arguments), .nl])

/-- `AnnotationKeyValue` (src/data_model.rs 392-419). -/
def annotationKeyValue (rec : Rec) (n : Loc) : R Prog := do
  assertCheck n "annotation_key_value"
  let key ← rec .valueNode (← n.cByN "key")
  let value ← rec .valueNode (← n.cByN "value")
  .ok (bwcp n [key, t "=", value])

/-- A bracketed body that prints its post comments unless it has dangling comments. -/
def bracketBody (n : Loc) (members : List (Bool × Prog)) : Prog :=
  .concat [.pre n.id, .ifDangling n.id (danglingBracket n.id) (.concat [surroundBody members, .post n.id])]

/-- `ClassBody` (src/data_model.rs 421-457). -/
def classBody (cfg : Cfg) (rec : Rec) (n : Loc) : R Prog := do
  assertCheck n "class_body"
  let members ← mapR (bodyMember cfg rec .classMember) n.childrenVec
  .ok (bracketBody n members)

/-- Declarators: no indentation for a single one (src/data_model.rs 507-515, 1180-1188). -/
def declaratorsDoc (docs : List Prog) : Prog :=
  match docs with
  | [d] => d
  | ds => .group (.indent (intersperse ds (.after .softline)))

/-- `FieldDeclaration` (src/data_model.rs 459-521). -/
def fieldDeclaration (rec : Rec) (n : Loc) : R Prog := do
  assertCheck n "field_declaration"
  let modifiers ← optR (n.tryCByK "modifiers") (rec .modifiers)
  let declarators ← mapR (rec .variableDeclarator) (← n.csByN "declarator")
  let accessors ← optR (n.tryCByK "accessor_list") (rec .accessorList)
  let type_ ← rec .unannotatedType (← n.cByN "type")
  .ok (bwcp n (opt modifiers ++ [type_, t " ", declaratorsDoc declarators] ++
    (match accessors with
     | some a => [t " ", a]
     | none => [])))

/-- `ArrayInitializer` (src/data_model.rs 523-558). -/
def arrayInitializer (rec : Rec) (n : Loc) : R Prog := do
  assertCheck n "array_initializer"
  let is ← mapR (rec .variableInitializer) n.childrenVec
  .ok (bwcp n [groupSurround is (.after .softline) (.sAfter "{" .softline) (.before .softline "}")])

/-- `AssignmentExpression` (src/data_model.rs 560-600). -/
def assignmentExpression (rec : Rec) (n : Loc) : R Prog := do
  assertCheck n "assignment_expression"
  let rightChild ← n.cByN "right"
  let left ← rec .assignmentLeft (← n.cByN "left")
  let op ← rec .valueNode (← n.cByN "operator")
  let right ← rec .expression rightChild
  .ok (bwcp n
    (if isQueryExpression rightChild then [.concat [left, t " ", op, t " ", right]]
     else [groupIndentConcat [left, t " ", op, .softline, right]]))

/-- `AssignmentLeft` (src/data_model.rs 602-634). -/
def assignmentLeft (rec : Rec) (n : Loc) : R Prog :=
  dispatch rec [("identifier", .valueNode), ("field_access", .fieldAccess), ("array_access", .arrayAccess)] n

/-- `BoolType` (src/data_model.rs 636-657). -/
def boolType (n : Loc) : R Prog := do
  assertCheck n "boolean_type"
  .ok (bwcp n [t "boolean"])

/-- `Block` (src/data_model.rs 659-697). -/
def block (cfg : Cfg) (rec : Rec) (n : Loc) : R Prog := do
  assertCheck n "block"
  let members ← mapR (bodyMember cfg rec .statement) n.childrenVec
  .ok (bracketBody n members)

/-- `Interface` (src/data_model.rs 699-724). -/
def interface (rec : Rec) (n : Loc) : R Prog := do
  assertCheck n "interfaces"
  let l ← rec .typeList (← n.cByK "type_list")
  .ok (bwcp n [.concat [tR "implements", l]])

/-- `TypeList` (src/data_model.rs 726-758). -/
def typeList (rec : Rec) (n : Loc) : R Prog := do
  assertCheck n "type_list"
  let ts ← mapR (rec .type) n.childrenVec
  .ok (bwcp n [intersperse ts (.s " ")])

/-- `ObjectExpression` (src/data_model.rs 766-793). -/
def objectExpression (rec : Rec) (n : Loc) : R Prog :=
  if n.kind = "super" then rec .super n else rec .primaryExpression n

/-- `PropertyNavigation` (src/enum_def.rs 726-743) as chosen in src/data_model.rs 879-884: the operator
`?.` if the next named node after the object is a safe navigation operator, otherwise a dot. -/
def propertyNavigation (rec : Rec) (obj : Loc) : R Prog := do
  let next ← obj.nextNamed
  if next.kind = "safe_navigation_operator" then rec .safeNavigationOperator next else .ok (t ".")

/-- Layout of a link in a chain (src/data_model.rs 829-857, 2198-2222): `maybeline` before the link if it is part of a
chain; the topmost link groups and indents everything. -/
def chainDoc (ctx : Option ChainingContext) (object : Prog) (link : List Prog) : Prog :=
  match ctx with
  | none => .concat ([object] ++ link)
  | some c =>
    let docs := [object] ++ (if c.isParentAChainingNode || c.isTopMostInAChain then [.maybeline] else []) ++ link
    if c.isTopMostInAChain then groupIndentConcat docs else .concat docs

/-- `MethodInvocation` and `MethodInvocationKind` (src/data_model.rs 796-916). -/
def methodInvocation (rec : Rec) (n : Loc) : R Prog := do
  assertCheck n "method_invocation"
  let name ← rec .valueNode (← n.cByN "name")
  let arguments ← rec .argumentList (← n.cByN "arguments")
  match n.tryCByN "object" with
  | none => .ok (bwcp n [.concat [name, arguments]])
  | some obj =>
    let object ← rec .objectExpression obj
    let nav ← propertyNavigation rec obj
    let typeArguments ← optR (n.tryCByK "type_arguments") (rec .typeArguments)
    let ctx ← buildChainingContext n
    .ok (bwcp n [chainDoc ctx object ([nav] ++ opt typeArguments ++ [name, arguments])])

/-- `TypeArguments` (src/data_model.rs 937-969). -/
def typeArguments (rec : Rec) (n : Loc) : R Prog := do
  let ts ← mapR (rec .type) n.childrenVec
  .ok (bwcp n [surround ts (.s " ") (.s "<") (.s ">")])

/-- `ArgumentList` (src/data_model.rs 971-1004). -/
def argumentList (rec : Rec) (n : Loc) : R Prog := do
  let es ← mapR (rec .expression) n.childrenVec
  .ok (bwcp n [parenList es])

/-- `Super` (src/data_model.rs 1006-1027). -/
def super (n : Loc) : R Prog := do
  assertCheck n "super"
  .ok (bwcp n [t "super"])

/-- `This` (src/data_model.rs 1029-1050). -/
def this (n : Loc) : R Prog := do
  assertCheck n "this"
  .ok (bwcp n [t "this"])

/-- `BinaryExpressionContext` (src/data_model.rs 1052-1057). -/
structure BinaryContext where
  isAChainingInnerNode : Bool
  hasParentSamePrecedence : Bool
  isParentReturnStatement : Bool

/-- `BinaryExpression::build_context` (src/data_model.rs 1069-1086). -/
def binaryContext (n : Loc) : R BinaryContext := do
  let op ← n.cByN "operator"
  let precedence ← getPrecedence op.kind
  match n.parent with
  | none => .error .unwrapNone
  | some parent =>
    let same ← (if isBinaryExp parent then do
        let pop ← parent.cByN "operator"
        let pp ← getPrecedence pop.kind
        .ok (precedence == pp)
      else .ok false)
    .ok { isAChainingInnerNode := isBinaryExp parent, hasParentSamePrecedence := same,
          isParentReturnStatement := parent.kind == "return_statement" }

/-- `BinaryExpression` (src/data_model.rs 1059-1142). -/
def binaryExpression (rec : Rec) (n : Loc) : R Prog := do
  assertCheck n "binary_expression"
  let left ← rec .expression (← n.cByN "left")
  let op ← n.cByN "operator"
  let right ← rec .expression (← n.cByN "right")
  let ctx ← binaryContext n
  let docs := [left, .softline, t op.kind, t " ", right]
  .ok (bwcp n
    [if ctx.hasParentSamePrecedence then .concat docs
     else if !ctx.isAChainingInnerNode && !ctx.isParentReturnStatement then groupConcat docs
     else groupIndentConcat docs])

end Prog.New
end Afmt
