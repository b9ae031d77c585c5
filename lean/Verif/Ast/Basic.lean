import Verif.Prog

/-!
# Typed nodes: common definitions

Every type `T` of src/data_model.rs and src/enum_def.rs with a constructor `T::new(node)` and an implementation of
`DocBuild` is modelled by one function `New.t` which maps the tree location to the document program that `build` of the
typed node executes.  Two uniform simplifications:

* `T::new` and `T::build_inner` are fused; a panic of either is an error value, and when several panics are possible
  the model may report another one than the Rust program (which panic is reported is never used).
* `DocBuild::build` wraps the pushed documents into a `Concat`.  For enum types, which push exactly the document of the
  chosen variant, this singleton `Concat` is omitted (it prints the same, see `pr_concat_singleton`).

Calls of other constructors go through `rec : Cls → Loc → R Prog`, the knot is tied in `Verif/Ast/Knot.lean` with a
bound on the recursion depth (the stack).
-/

namespace Afmt

/-- Names of the modelled types. -/
inductive Cls where
  | root | classDeclaration | methodDeclaration | formalParameters | formalParameter | superClass | modifiers | modifier
  | annotation | annotationKeyValue | classBody | fieldDeclaration | arrayInitializer | assignmentExpression
  | assignmentLeft | boolType | block | interface | typeList | objectExpression | methodInvocation | typeArguments
  | argumentList | super | this | binaryExpression | localVariableDeclaration | variableDeclarator | genericType
  | ifStatement | parenthesizedExpression | forInitOption | forStatement | enhancedForStatement
  | updateExpressionVariant | scopedTypeIdentifier | constructorDeclaration | constructorBody | constructInvocation
  | typeParameters | typeParameter | objectCreationExpression | runAsStatement | doStatement | whileStatement
  | unaryExpression | fieldAccess | fieldOption | enumDeclaration | enumBody | enumConstant | dmlExpressionVariant
  | dmlSecurityMode | dmlTypeVariant | arrayAccess | arrayCreationExpression | dimensions | dimensionsExpr
  | returnStatement | ternaryExpression | tryStatement | catchClause | finallyClause | staticInitializer
  | interfaceDeclaration | extendsInterface | interfaceBody | interfaceMember | constantDeclaration | accessorList
  | accessorDeclaration | castExpression | throwStatement | breakStatement | continueStatement | switchExpression
  | switchBlock | switchRule | switchLabel | whenSObjectType | instanceOfExpression | versionExpression
  | javaFieldAccess | javaType | arrayType | triggerDeclaration | triggerEvent | triggerBody | queryExpression
  | soslQueryBody | findClause | inClause | returningClause | sObjectReturn | soqlQueryBody | fromClause | storageAlias
  | limitClause | updateClause | boundApexExpression | soslUsingClause | usingSearch | usingClause | usingClauseOption
  | usingScopeClause | usingLookupClause | usingListviewClause | usingLookupBindClause | usingLookupBindExpression
  | whereClause | comparisonExpression | comparableList | orderByClause | orderExpression | subQuery
  | mapCreationExpression | mapInitializer | mapKeyInitializer | groupByClause | havingClause | soslWithClause
  | soqlWithClause | soqlWithTypeVariant | soslWithType | withDataCatExpression | withDataCatFilter
  | withDivisionExpression | withSnippetExpression | withNetworkExpression | withMetadataExpression
  | withSpellCorrectionExpression | withPriceBookExpression | dottedIdentifier | valueNode | valueNodeLowerCase
  | valueNodeUpperCase | expressionStatement | safeNavigationOperator | countExpression | functionExpression
  | fieldIdentifier | geoLocationType | selectClause | storageIdentifier | andExpression | orExpression
  | notExpression | soqlWithType | forClause | allRowsClause | updateExpression | dmlExpression | dmlType
  -- src/enum_def.rs
  | rootMember | classMember | unannotatedType | simpleType | variableInitializer | expression | primaryExpression
  | classLiteral | literal | modifierKind | statement | type | annotationArgumentList | triggerEventVariant
  | selectClauseVariant | selectableExpression | fieldsExpression | aliasExpression | fieldIdentifierVariant
  | storageVariant | storageIdentifierVariant | limitValue | booleanExpression | conditionExpression
  | valueExpression | geoLocationTypeVariant | comparison | soqlLiteral | dateLiteralWithParam | setValue
  | comparableListValue | offsetClause | functionExpressionVariant
  deriving DecidableEq, Repr

/-- Recursive calls of constructors. -/
abbrev Rec := Cls → Loc → R Prog

/-- What a constructor may depend on besides the node: the comment map (read by `BodyMember::new`) and whether the
program was compiled with overflow checks (debug profile). -/
structure Cfg where
  cm : CMap
  checks : Bool

/-- `.map(f)` on an option of nodes. -/
def optR {α β : Type} (o : Option α) (f : α → R β) : R (Option β) :=
  match o with
  | none => .ok none
  | some a => match f a with
    | .ok b => .ok (some b)
    | .error e => .error e

/-- `.into_iter().map(f).collect()` on nodes. -/
def mapR {α β : Type} (f : α → R β) : List α → R (List β)
  | [] => .ok []
  | a :: as => match f a with
    | .error e => .error e
    | .ok b => match mapR f as with
      | .error e => .error e
      | .ok bs => .ok (b :: bs)

namespace Prog.New

/-- `build_with_comments_and_punc` with `NodeContext::with_punctuation(&node)`. -/
def bwcp (n : Loc) (members : List Prog) : Prog := withCommentsAndPunc n.id (Punc.from n) members

/-- `build_with_comments` (the context's punctuation is not used). -/
def bwc (n : Loc) (members : List Prog) : Prog := withComments n.id members

/-- One doc for a list: `softline` separators inside `(`..`)` with `maybeline`s, as used for all kinds of argument
lists. -/
def parenList (docs : List Prog) : Prog :=
  groupSurround docs (.after .softline) (.sAfter "(" .maybeline) (.before .maybeline ")")

/-- Lookup in a dispatch table; unknown kinds panic (`panic_unknown_node`). -/
def dispatch (rec : Rec) (tbl : List (String × Cls)) (n : Loc) : R Prog :=
  match tbl.find? (fun e => e.1 == n.kind) with
  | some e => rec e.2 n
  | none => .error .unknownNode

/-- `BodyMember::has_trailing_newline` (src/enum_def.rs 811-823).  `n.start_position().row - 1` underflows on row 0:
a panic with overflow checks, otherwise it wraps around to a huge number. -/
def hasTrailingNewline (cfg : Cfg) (n : Loc) : R Bool :=
  match getBucket cfg.cm n.id with
  | .error e => .error e
  | .ok b =>
    match b.post.getLast? with
    | some c => .ok c.meta'.hasEmptyLineBelow
    | none =>
      match n.nextNamedSibling with
      | none => .ok false
      | some s =>
        if s.startRow = 0 then (if cfg.checks then .error .arithmetic else .ok true)
        else .ok (decide (n.endRow < s.startRow - 1))

/-- `BodyMember::new` (src/enum_def.rs 802-808). -/
def bodyMember (cfg : Cfg) (rec : Rec) (c : Cls) (n : Loc) : R (Bool × Prog) :=
  match rec c n with
  | .error e => .error e
  | .ok p => match hasTrailingNewline cfg n with
    | .error e => .error e
    | .ok t => .ok (t, p)

end Prog.New
end Afmt
