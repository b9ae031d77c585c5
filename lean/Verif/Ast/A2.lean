import Verif.Ast.A1

/-!
# src/data_model.rs 1144-2061
-/

namespace Afmt
namespace Prog.New

/-- `LocalVariableDeclaration` (src/data_model.rs 1144-1197).  The context carries no punctuation: the last declarator
prints the semicolon. -/
def localVariableDeclaration (rec : Rec) (n : Loc) : R Prog := do
  assertCheck n "local_variable_declaration"
  let modifiers ← optR (n.tryCByK "modifiers") (rec .modifiers)
  let declarators ← mapR (rec .variableDeclarator) (← n.csByN "declarator")
  let type_ ← rec .unannotatedType (← n.cByN "type")
  .ok (withCommentsAndPunc n.id none (opt modifiers ++ [type_, t " ", declaratorsDoc declarators]))

/-- `VariableDeclarator` (src/data_model.rs 1199-1258).  The value is always built as an `Expression`. -/
def variableDeclarator (rec : Rec) (n : Loc) : R Prog := do
  assertCheck n "variable_declarator"
  let op ← optR (n.tryCByK "assignment_operator") (rec .valueNode)
  let name ← rec .valueNode (← n.cByN "name")
  match n.tryCByN "value" with
  | none => .ok (bwcp n [.concat [name]])
  | some v =>
    let value ← rec .expression v
    .ok (bwcp n
      (if isQueryExpression v then [.concat ([name, t " "] ++ opt op ++ [t " ", value])]
       else [groupIndentConcat ([name, t " "] ++ opt op ++ [.softline, value])]))

/-- `GenericType` and `GenericIdentifier` (src/data_model.rs 1260-1313).  A simple identifier is kept as a string, its
comment bucket is not printed. -/
def genericType (rec : Rec) (n : Loc) : R Prog := do
  assertCheck n "generic_type"
  let ident ← (match n.tryCByK "type_identifier" with
    | some i => .ok (.txt i.value)
    | none => match n.tryCByK "scoped_type_identifier" with
      | some s => rec .scopedTypeIdentifier s
      | none => .error .missingChild)
  let args ← rec .typeArguments (← n.cByK "type_arguments")
  .ok (bwcp n [ident, args])

/-- `IfStatement` and `ElseClause` (src/data_model.rs 1315-1390). -/
def ifStatement (rec : Rec) (n : Loc) : R Prog := do
  assertCheck n "if_statement"
  let condition ← rec .parenthesizedExpression (← n.cByN "condition")
  let cons ← n.cByN "consequence"
  let consequence ← rec .statement cons
  let isBlock := cons.kind = "block"
  let first := [t "if ", condition] ++
    (if isBlock then [t " ", consequence] else [.indent .nl, .indent consequence])
  match n.tryCByN "alternative" with
  | none => .ok (bwcp n first)
  | some alt =>
    match n.children.find? (fun c => c.kind == "else") with
    | none => .error .missingChild
    | some e =>
      let els ← rec .valueNode e
      let alternative ← rec .statement alt
      .ok (bwcp n (first ++
        (if isBlock then [t " ", els, t " "]
         else [.nl, els, if alt.kind = "if_statement" ∨ alt.kind = "block" then t " " else .indent .nl]) ++
        [alternative]))

/-- `ParenthesizedExpression` (src/data_model.rs 1392-1421). -/
def parenthesizedExpression (rec : Rec) (n : Loc) : R Prog := do
  let exp ← rec .expression (← n.firstC)
  .ok (bwcp n [t "(", .group (.concat [.indent .maybeline, .indent exp, .maybeline]), t ")"])

/-- `ForInitOption` (src/data_model.rs 1423-1459). -/
def forInitOption (rec : Rec) (n : Loc) : R Prog :=
  if n.kind = "local_variable_declaration" then rec .localVariableDeclaration n
  else match n.parent with
    | none => .error .unwrapNone
    | some p => do
      let exps ← mapR (rec .expression) (← p.csByN "init")
      .ok (.group (intersperse exps (.after .softline)))

/-- `;` of a `for` without body (src/data_model.rs 1545-1551, 1594-1600). -/
def loopBody (rec : Rec) (body : Loc) : R (List Prog) := do
  let b ← rec .statement body
  .ok (if body.kind = ";" then [t ";"] else [t " ", b])

/-- `ForStatement` (src/data_model.rs 1461-1554): the semicolons which are children of the statement are consumed in
order by a missing initialiser and a missing condition. -/
def forStatement (rec : Rec) (n : Loc) : R Prog := do
  assertCheck n "for_statement"
  let init ← optR (n.tryCByN "init") (rec .forInitOption)
  let condition ← optR (n.tryCByN "condition") (rec .expression)
  let update ← optR (n.tryCByN "update") (rec .expression)
  let semis ← mapR Punc.new (n.children.filter (fun c => c.kind == ";"))
  let body ← loopBody rec (← n.cByN "body")
  let updateDoc := match update with
    | some u => .concat [t " ", u]
    | none => nil
  let parts ← (match init, condition, semis with
    | some i, some c, _ => .ok [i, .concat [t " ", c], updateDoc]
    | some i, none, s :: _ => .ok [i, .punct s, updateDoc]
    | none, some c, s :: _ => .ok [.punct s, .concat [t " ", c], updateDoc]
    | none, none, s :: s' :: _ => .ok [.punct s, .punct s', updateDoc]
    | _, _, _ => .error .missingChild)
  .ok (bwcp n ([t "for ",
    groupSurround parts (.after .maybeline) (.sAfter "(" .maybeline) (.before .maybeline ")")] ++ body))

/-- `EnhancedForStatement` (src/data_model.rs 1556-1603).  Modifiers and dimensions are not read. -/
def enhancedForStatement (rec : Rec) (n : Loc) : R Prog := do
  assertCheck n "enhanced_for_statement"
  let type_ ← rec .unannotatedType (← n.cByN "type")
  let name ← rec .valueNode (← n.cByN "name")
  let value ← rec .expression (← n.cByN "value")
  let body ← loopBody rec (← n.cByN "body")
  .ok (bwcp n ([t "for (", type_, t " ", name, tLR ":", value, t ")"] ++ body))

/-- `UpdateExpressionVariant` (src/data_model.rs 1604-1650). -/
def updateExpressionVariant (rec : Rec) (n : Loc) : R Prog := do
  assertCheck n "update_expression"
  let operator ← n.cByN "operator"
  let operand ← n.cByN "operand"
  let e ← rec .expression operand
  .ok (.concat (if operator.startByte < operand.startByte then [.txt operator.value, e] else [e, .txt operator.value]))

/-- Annotations followed by a name (src/data_model.rs 1697-1703, 1973-1979). -/
def annotatedName (annotations : List Prog) (name : Str) : List Prog :=
  (if annotations.isEmpty then [] else [intersperse annotations (.s " "), t " "]) ++ [.txt name]

/-- `ScopedTypeIdentifier` and `ScopedChoice` (src/data_model.rs 1652-1729).  Simple identifiers are kept as strings. -/
def scopedTypeIdentifier (rec : Rec) (n : Loc) : R Prog := do
  assertCheck n "scoped_type_identifier"
  let prefixNode ← n.firstC
  let choice ← (if prefixNode.kind = "type_identifier" then .ok (.txt prefixNode.value)
    else if prefixNode.kind = "scoped_type_identifier" then rec .scopedTypeIdentifier prefixNode
    else if prefixNode.kind = "generic_type" then rec .genericType prefixNode
    else .error .unknownNode)
  let annotations ← mapR (rec .annotation) (n.tryCsByK "annotation")
  let ids ← n.csByK "type_identifier"
  match ids.getLast? with
  | none => .error .unwrapNone
  | some i => .ok (bwcp n ([choice, t "."] ++ annotatedName annotations i.value))

/-- `ConstructorDeclaration` (src/data_model.rs 1731-1775). -/
def constructorDeclaration (rec : Rec) (n : Loc) : R Prog := do
  let modifiers ← optR (n.tryCByK "modifiers") (rec .modifiers)
  let typeParameters ← optR (n.tryCByK "type_parameters") (rec .typeParameters)
  let name ← rec .valueNode (← n.cByN "name")
  let parameters ← rec .formalParameters (← n.cByN "parameters")
  let body ← rec .constructorBody (← n.cByN "body")
  .ok (bwcp n (opt modifiers ++ opt typeParameters ++ [name, parameters, t " ", body]))

/-- Layout of `ConstructorBody` without dangling comments (src/data_model.rs 1810-1834).  The blank line after the
constructor invocation is not indented, and post comments are never printed. -/
def constructorBodyDoc (inv : Option (Bool × Prog)) (statements : List (Bool × Prog)) : List Prog :=
  match inv, statements with
  | none, [] => [.concat [t "{", .nl, t "}"]]
  | none, ss => [t "{", .indent .nl, .indent (intersperseBody ss), .nl, t "}"]
  | some (_, c), [] => [t "{", .indent (.concat [.nl, c]), .indent (intersperseBody []), .nl, t "}"]
  | some (tr, c), ss =>
    [t "{", .indent (.concat [.nl, c]), if tr then .sep true else .indent (.sep false), .indent (intersperseBody ss), .nl,
      t "}"]

/-- `ConstructorBody` (src/data_model.rs 1777-1838). -/
def constructorBody (cfg : Cfg) (rec : Rec) (n : Loc) : R Prog := do
  let (inv, statements) ← (match n.childrenVec with
    | [] => .ok (none, [])
    | c :: cs =>
      if c.kind = "explicit_constructor_invocation" then do
        let inv ← bodyMember cfg rec .constructInvocation c
        let ss ← mapR (bodyMember cfg rec .statement) cs
        .ok (some inv, ss)
      else do
        let ss ← mapR (bodyMember cfg rec .statement) (c :: cs)
        .ok (none, ss) : R (Option (Bool × Prog) × List (Bool × Prog)))
  .ok (.concat [.pre n.id, .ifDangling n.id (danglingBracket n.id) (.concat (constructorBodyDoc inv statements))])

/-- `ConstructInvocation` and `Constructor` (src/data_model.rs 1840-1908). -/
def constructInvocation (rec : Rec) (n : Loc) : R Prog := do
  let object ← optR (n.tryCByN "object") (rec .primaryExpression)
  let typeArguments ← optR (n.tryCByK "type_arguments") (rec .typeArguments)
  let constructor ← optR (n.tryCByN "constructor") (fun c =>
    if c.kind = "this" then .ok (t "this") else if c.kind = "super" then .ok (t "super") else .error .unknownNode)
  let arguments ← rec .argumentList (← n.cByN "arguments")
  .ok (bwcp n (opt object ++ opt typeArguments ++ opt constructor ++ [arguments]))

/-- `TypeParameters` (src/data_model.rs 1910-1945). -/
def typeParameters (rec : Rec) (n : Loc) : R Prog := do
  assertCheck n "type_parameters"
  let ps ← mapR (rec .typeParameter) (← n.csByK "type_parameter")
  .ok (bwcp n [groupSurround ps (.after .softline) (.sAfter "<" .maybeline) (.before .maybeline ">")])

/-- `TypeParameter` (src/data_model.rs 1947-1982). -/
def typeParameter (rec : Rec) (n : Loc) : R Prog := do
  let annotations ← mapR (rec .annotation) (n.tryCsByK "annotation")
  let name ← n.cvalueByK "type_identifier"
  .ok (bwcp n (annotatedName annotations name))

/-- `ObjectCreationExpression` (src/data_model.rs 1984-2029). -/
def objectCreationExpression (rec : Rec) (n : Loc) : R Prog := do
  assertCheck n "object_creation_expression"
  let typeArguments ← optR (n.tryCByK "type_arguments") (rec .typeArguments)
  let classBody ← optR (n.tryCByK "class_body") (rec .classBody)
  let type_ ← rec .unannotatedType (← n.cByN "type")
  let arguments ← rec .argumentList (← n.cByN "arguments")
  .ok (bwcp n ([t "new"] ++ opt typeArguments ++ [t " ", type_, arguments] ++ opt classBody))

/-- `RunAsStatement` (src/data_model.rs 2031-2059). -/
def runAsStatement (rec : Rec) (n : Loc) : R Prog := do
  assertCheck n "run_as_statement"
  let user ← rec .parenthesizedExpression (← n.cByN "user")
  let block ← rec .block (← n.cByK "block")
  .ok (bwcp n [t "System.runAs", user, t " ", block])

end Prog.New
end Afmt
