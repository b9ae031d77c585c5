import Verif.Ast.Knot

/-!
# Specification: the shape of Apex syntax trees and what they contain

This file does not mention any definition of afmt except the names of its types (`Cls`), used as names of
nonterminals.  It says

* which trees follow the Apex grammar (`Node.conforms`): productions as data, matched against the children of a node
  that are no comments;
* what code a tree contains (`Node.code`): the visible characters of its leaves in order.

The grammar of tree-sitter-sfapex is not part of the repository (it is a dependency and not on this machine).  The
productions below are reconstructed from the field names and kinds the constructors of src/data_model.rs and
src/enum_def.rs ask for and from the Apex language.  Constructs which afmt is known to lose or change (see DESIGN.md,
findings) are left out; the theorems say nothing about trees containing them.
-/

namespace Afmt.Gram

/-- Nonterminals: the typed nodes of afmt and four kinds that have no type of their own. -/
inductive NT where
  | cls (c : Cls)
  | selectedFields
  | withUserId
  | withHighlight
  | securityWho
  deriving DecidableEq, Repr

/-- One expected child: named or token, under which field names, of which kinds, and for children that are no bare
tokens the nonterminal. -/
structure Atom where
  named : Bool
  fields : List (Option String)
  kinds : List String
  nt : Option NT
  deriving DecidableEq, Repr

/-- One element of a production. -/
inductive Spec where
  /-- exactly one -/
  | one (a : Atom)
  /-- at most one -/
  | opt (a : Atom)
  /-- any number -/
  | many (a : Atom)
  /-- at least one, separated by a token -/
  | sep1 (a : Atom) (s : String)
  /-- any number, separated by a token -/
  | sep0 (a : Atom) (s : String)
  /-- operands separated by a token, each either bare or in parentheses -/
  | cond (bare par : Atom) (s : String)
  deriving DecidableEq, Repr

/-- What the node of a nonterminal looks like. -/
inductive Shape where
  /-- no constraint on the children except that the leaves spell the text -/
  | value
  /-- like `value`, with a fixed text depending on the kind, up to letter case -/
  | words (tbl : List (String × String))
  /-- the children follow one of the productions; or, if the flag is set, the node is like `value` without named
  children -/
  | alts (val : Bool) (ps : List (List Spec))
  deriving Repr

/-! ### Nonterminals that stand for a choice of nonterminals for the same node -/

/-- Kinds of primary expressions. -/
def primaryTable : List (String × Cls) :=
  [("int", .literal), ("decimal_floating_point_literal", .literal), ("boolean", .literal),
    ("null_literal", .literal), ("string_literal", .literal), ("identifier", .valueNode),
    ("class_literal", .classLiteral), ("method_invocation", .methodInvocation),
    ("parenthesized_expression", .parenthesizedExpression), ("object_creation_expression", .objectCreationExpression),
    ("map_creation_expression", .mapCreationExpression), ("field_access", .fieldAccess), ("array_access", .arrayAccess),
    ("array_creation_expression", .arrayCreationExpression), ("version_expression", .versionExpression),
    ("query_expression", .queryExpression), ("java_field_access", .javaFieldAccess), ("this", .this)]

/-- Kinds of expressions. -/
def expressionTable : List (String × Cls) :=
  [("assignment_expression", .assignmentExpression), ("binary_expression", .binaryExpression),
    ("update_expression", .updateExpression), ("unary_expression", .unaryExpression),
    ("dml_expression", .dmlExpression), ("ternary_expression", .ternaryExpression),
    ("cast_expression", .castExpression), ("instanceof_expression", .instanceOfExpression)] ++
  primaryTable.map (fun e => (e.1, .primaryExpression))

/-- Kinds of simple types. -/
def simpleTypeTable : List (String × Cls) :=
  [("type_identifier", .valueNode), ("void_type", .valueNode), ("boolean_type", .boolType), ("java_type", .javaType),
    ("generic_type", .genericType), ("scoped_type_identifier", .scopedTypeIdentifier)]

/-- Kinds of types. -/
def typeTable : List (String × Cls) :=
  simpleTypeTable.map (fun e => (e.1, .simpleType)) ++ [("array_type", .arrayType)]

/-- Kinds of literals in queries. -/
def soqlLiteralTable : List (String × Cls) :=
  [("decimal", .valueNode), ("int", .valueNode), ("string_literal", .valueNode), ("boolean", .valueNode),
    ("date", .valueNode), ("date_literal", .valueNode), ("date_literal_with_param", .dateLiteralWithParam),
    ("null_literal", .valueNode)]

/-- The alternatives of a nonterminal that is a choice. -/
def sub : Cls → List (String × Cls)
  | .rootMember => [("class_declaration", .classDeclaration), ("enum_declaration", .enumDeclaration),
      ("trigger_declaration", .triggerDeclaration), ("interface_declaration", .interfaceDeclaration)]
  | .classMember => [("field_declaration", .fieldDeclaration), ("class_declaration", .classDeclaration),
      ("method_declaration", .methodDeclaration), ("interface_declaration", .interfaceDeclaration), ("block", .block),
      ("constructor_declaration", .constructorDeclaration), ("enum_declaration", .enumDeclaration),
      ("static_initializer", .staticInitializer)]
  | .interfaceMember => [("constant_declaration", .constantDeclaration), ("enum_declaration", .enumDeclaration),
      ("method_declaration", .methodDeclaration), ("class_declaration", .classDeclaration),
      ("interface_declaration", .interfaceDeclaration)]
  | .statement => [("if_statement", .ifStatement), ("expression_statement", .expressionStatement),
      ("local_variable_declaration", .localVariableDeclaration), ("block", .block), ("for_statement", .forStatement),
      ("enhanced_for_statement", .enhancedForStatement), ("run_as_statement", .runAsStatement),
      ("do_statement", .doStatement), ("while_statement", .whileStatement), ("return_statement", .returnStatement),
      ("try_statement", .tryStatement), ("throw_statement", .throwStatement), ("break_statement", .breakStatement),
      ("continue_statement", .continueStatement), ("switch_expression", .switchExpression)]
  | .unannotatedType | .type => typeTable
  | .simpleType => simpleTypeTable
  | .expression => expressionTable
  | .primaryExpression => primaryTable
  | .literal => [("boolean", .valueNodeLowerCase), ("null_literal", .valueNodeLowerCase), ("int", .valueNode),
      ("string_literal", .valueNode), ("decimal_floating_point_literal", .valueNodeLowerCase)]
  | .variableInitializer => ("array_initializer", .arrayInitializer) :: expressionTable.map (fun e => (e.1, .expression))
  | .objectExpression => ("super", .super) :: primaryTable.map (fun e => (e.1, .primaryExpression))
  | .fieldOption => [("this", .this), ("identifier", .valueNode)]
  | .assignmentLeft => [("identifier", .valueNode), ("field_access", .fieldAccess), ("array_access", .arrayAccess)]
  | .selectableExpression => [("field_identifier", .fieldIdentifier), ("function_expression", .functionExpression),
      ("alias_expression", .aliasExpression), ("fields_expression", .fieldsExpression), ("subquery", .subQuery)]
  | .storageVariant => [("storage_alias", .storageAlias), ("storage_identifier", .storageIdentifier)]
  | .limitValue => [("int", .valueNode), ("bound_apex_expression", .boundApexExpression)]
  | .valueExpression => [("field_identifier", .fieldIdentifier), ("function_expression", .functionExpression)]
  | .soqlLiteral => soqlLiteralTable
  | .setValue => [("subquery", .subQuery), ("comparable_list", .comparableList),
      ("bound_apex_expression", .boundApexExpression)]
  | .comparableListValue =>
      ("bound_apex_expression", .boundApexExpression) :: soqlLiteralTable.map (fun e => (e.1, .soqlLiteral))
  | .booleanExpression => [("and_expression", .andExpression), ("or_expression", .orExpression),
      ("not_expression", .notExpression), ("comparison_expression", .comparisonExpression)]
  | .usingClauseOption => [("using_scope_clause", .usingScopeClause), ("using_listview_clause", .usingListviewClause)]
  | _ => []

/-- Follow the choices for a node of the given kind. -/
def resolve : Nat → Cls → String → Cls
  | 0, c, _ => c
  | fuel + 1, c, k =>
    match (sub c).find? (fun e => e.1 == k) with
    | some e => resolve fuel e.2 k
    | none => c

/-- The nonterminal a node of the given kind has to match. -/
def NT.core : NT → String → NT
  | .cls c, k => .cls (resolve 5 c k)
  | nt, _ => nt

/-! ### Node kinds of the nonterminals -/

/-- Fixed texts of modifiers. -/
def modifierWords : List (String × String) :=
  [("global", "global"), ("public", "public"), ("with_sharing", "with sharing"),
    ("without_sharing", "without sharing"), ("private", "private"), ("override", "override"), ("static", "static"),
    ("final", "final"), ("virtual", "virtual"), ("abstract", "abstract"), ("inherited_sharing", "inherited sharing"),
    ("protected", "protected"), ("testMethod", "testMethod"), ("transient", "transient"),
    ("webservice", "webService")]

/-- Fixed texts of trigger events. -/
def triggerWords : List (String × String) :=
  [("before_insert", "before insert"), ("before_update", "before update"), ("before_delete", "before delete"),
    ("after_insert", "after insert"), ("after_update", "after update"), ("after_delete", "after delete"),
    ("after_undelete", "after undelete")]

/-- Fixed texts of DML operations. -/
def dmlWords : List (String × String) :=
  [("insert", "insert"), ("update", "update"), ("delete", "delete"), ("undelete", "undelete"), ("merge", "merge"),
    ("upsert", "upsert")]

/-- Node kind of a nonterminal that is no choice. -/
def kindOf : Cls → List String
  | .root => ["parser_output"]
  | .classDeclaration => ["class_declaration"]
  | .methodDeclaration => ["method_declaration"]
  | .formalParameters => ["formal_parameters"]
  | .formalParameter => ["formal_parameter"]
  | .superClass => ["superclass"]
  | .modifiers => ["modifiers"]
  | .modifier => ["modifier"]
  | .modifierKind => modifierWords.map (·.1)
  | .annotation => ["annotation"]
  | .annotationArgumentList => ["annotation_argument_list"]
  | .annotationKeyValue => ["annotation_key_value"]
  | .classBody => ["class_body"]
  | .fieldDeclaration => ["field_declaration"]
  | .arrayInitializer => ["array_initializer"]
  | .assignmentExpression => ["assignment_expression"]
  | .boolType => ["boolean_type"]
  | .block => ["block"]
  | .interface => ["interfaces"]
  | .typeList => ["type_list"]
  | .methodInvocation => ["method_invocation"]
  | .typeArguments => ["type_arguments"]
  | .argumentList => ["argument_list"]
  | .super => ["super"]
  | .this => ["this"]
  | .binaryExpression => ["binary_expression"]
  | .localVariableDeclaration => ["local_variable_declaration"]
  | .variableDeclarator => ["variable_declarator"]
  | .genericType => ["generic_type"]
  | .ifStatement => ["if_statement"]
  | .parenthesizedExpression => ["parenthesized_expression"]
  | .forStatement => ["for_statement"]
  | .enhancedForStatement => ["enhanced_for_statement"]
  | .updateExpression | .updateExpressionVariant => ["update_expression"]
  | .scopedTypeIdentifier => ["scoped_type_identifier"]
  | .constructorDeclaration => ["constructor_declaration"]
  | .constructorBody => ["constructor_body"]
  | .constructInvocation => ["explicit_constructor_invocation"]
  | .typeParameters => ["type_parameters"]
  | .typeParameter => ["type_parameter"]
  | .objectCreationExpression => ["object_creation_expression"]
  | .runAsStatement => ["run_as_statement"]
  | .doStatement => ["do_statement"]
  | .whileStatement => ["while_statement"]
  | .unaryExpression => ["unary_expression"]
  | .fieldAccess => ["field_access"]
  | .enumDeclaration => ["enum_declaration"]
  | .enumBody => ["enum_body"]
  | .enumConstant => ["enum_constant"]
  | .dmlExpression | .dmlExpressionVariant => ["dml_expression"]
  | .dmlSecurityMode => ["dml_security_mode"]
  | .dmlType => ["dml_type"]
  | .dmlTypeVariant => dmlWords.map (·.1)
  | .arrayAccess => ["array_access"]
  | .arrayCreationExpression => ["array_creation_expression"]
  | .dimensions => ["dimensions"]
  | .dimensionsExpr => ["dimensions_expr"]
  | .returnStatement => ["return_statement"]
  | .ternaryExpression => ["ternary_expression"]
  | .tryStatement => ["try_statement"]
  | .catchClause => ["catch_clause"]
  | .finallyClause => ["finally_clause"]
  | .staticInitializer => ["static_initializer"]
  | .interfaceDeclaration => ["interface_declaration"]
  | .extendsInterface => ["extends_interfaces"]
  | .interfaceBody => ["interface_body"]
  | .constantDeclaration => ["constant_declaration"]
  | .accessorList => ["accessor_list"]
  | .accessorDeclaration => ["accessor_declaration"]
  | .castExpression => ["cast_expression"]
  | .throwStatement => ["throw_statement"]
  | .breakStatement => ["break_statement"]
  | .continueStatement => ["continue_statement"]
  | .switchExpression => ["switch_expression"]
  | .switchBlock => ["switch_block"]
  | .switchRule => ["switch_rule"]
  | .switchLabel => ["switch_label"]
  | .whenSObjectType => ["when_sobject_type"]
  | .instanceOfExpression => ["instanceof_expression"]
  | .versionExpression => ["version_expression"]
  | .javaFieldAccess => ["java_field_access"]
  | .javaType => ["java_type"]
  | .arrayType => ["array_type"]
  | .triggerDeclaration => ["trigger_declaration"]
  | .triggerEvent => ["trigger_event"]
  | .triggerEventVariant => triggerWords.map (·.1)
  | .triggerBody => ["trigger_body"]
  | .queryExpression => ["query_expression"]
  | .soslQueryBody => ["sosl_query_body"]
  | .findClause => ["find_clause"]
  | .inClause => ["in_clause"]
  | .returningClause => ["returning_clause"]
  | .sObjectReturn => ["sobject_return"]
  | .soqlQueryBody => ["soql_query_body"]
  | .fromClause => ["from_clause"]
  | .storageAlias => ["storage_alias"]
  | .limitClause => ["limit_clause"]
  | .updateClause => ["update_clause"]
  | .boundApexExpression => ["bound_apex_expression"]
  | .soslUsingClause => ["sosl_using_clause"]
  | .usingSearch => ["using_phrase_search", "using_advanced_search"]
  | .usingClause => ["using_clause"]
  | .usingScopeClause => ["using_scope_clause"]
  | .usingListviewClause => ["using_listview_clause"]
  | .whereClause => ["where_clause"]
  | .comparisonExpression => ["comparison_expression"]
  | .comparison => ["comparison_expression", "with_network_expression"]
  | .comparableList => ["comparable_list"]
  | .orderByClause => ["order_by_clause"]
  | .orderExpression => ["order_expression"]
  | .subQuery => ["subquery"]
  | .mapCreationExpression => ["map_creation_expression"]
  | .mapInitializer => ["map_initializer"]
  | .mapKeyInitializer => ["map_key_initializer"]
  | .groupByClause => ["group_by_clause"]
  | .havingClause => ["having_clause"]
  | .soslWithClause | .soqlWithClause => ["with_clause"]
  | .soqlWithType | .soqlWithTypeVariant | .soslWithType => ["with_type"]
  | .withDataCatExpression => ["with_data_cat_expression"]
  | .withDataCatFilter => ["with_data_cat_filter"]
  | .withDivisionExpression => ["with_division_expression"]
  | .withSnippetExpression => ["with_snippet_expression"]
  | .withNetworkExpression => ["with_network_expression"]
  | .withMetadataExpression => ["with_metadata_expression"]
  | .withSpellCorrectionExpression => ["with_spell_correction_expression"]
  | .withPriceBookExpression => ["with_pricebook_expression"]
  | .dottedIdentifier => ["dotted_identifier"]
  | .expressionStatement => ["expression_statement"]
  | .safeNavigationOperator => ["safe_navigation_operator"]
  | .countExpression => ["count_expression"]
  | .functionExpression | .functionExpressionVariant => ["function_expression"]
  | .fieldIdentifier | .fieldIdentifierVariant => ["field_identifier"]
  | .geoLocationType | .geoLocationTypeVariant => ["geo_location_type"]
  | .selectClause | .selectClauseVariant => ["select_clause"]
  | .storageIdentifier | .storageIdentifierVariant => ["storage_identifier"]
  | .andExpression => ["and_expression"]
  | .orExpression => ["or_expression"]
  | .notExpression => ["not_expression"]
  | .forClause => ["for_clause"]
  | .allRowsClause => ["all_rows_clause"]
  | .classLiteral => ["class_literal"]
  | .fieldsExpression => ["fields_expression"]
  | .aliasExpression => ["alias_expression"]
  | .dateLiteralWithParam => ["date_literal_with_param"]
  | .offsetClause => ["offset_clause"]
  | _ => []

/-- All node kinds a nonterminal can have. -/
def kindsOf (c : Cls) : List String :=
  match sub c with
  | [] => kindOf c
  | t => t.map (·.1)

/-! ### Atoms -/

/-- a bare token -/
def tok (k : String) : Atom := ⟨false, [none], [k], none⟩
/-- a token under a field, of one of several kinds -/
def tokF (f : String) (ks : List String) : Atom := ⟨false, [some f], ks, none⟩
/-- a child under a field -/
def kf (f : String) (c : Cls) : Atom := ⟨true, [some f], kindsOf c, some (.cls c)⟩
/-- a child without field -/
def k0 (c : Cls) : Atom := ⟨true, [none], kindsOf c, some (.cls c)⟩
/-- a child with or without the field -/
def kx (f : String) (c : Cls) : Atom := ⟨true, [none, some f], kindsOf c, some (.cls c)⟩
/-- a child printed as it is, without field -/
def v0 (ks : List String) : Atom := ⟨true, [none], ks, some (.cls .valueNode)⟩
/-- a child printed as it is, under a field -/
def vf (f : String) (ks : List String) : Atom := ⟨true, [some f], ks, some (.cls .valueNode)⟩

/-- Binary operators. -/
def binaryOps : List String :=
  ["||", "??", "&&", "|", "^", "&", "==", "!=", "===", "!==", "<>", ">", "<", ">=", "<=", "<<", ">>", ">>>", "+", "-",
    "*", "/", "%"]

/-- Kinds of values in annotations. -/
def annotationValueKinds : List String :=
  ["string_literal", "int", "boolean", "identifier", "decimal_floating_point_literal", "null_literal"]

/-! ### Productions -/

open Spec

/-- Tail of a comparison. -/
def comparisonTails : List (List Spec) :=
  [[one (v0 ["value_comparison_operator"]), one (k0 .boundApexExpression)],
   [one (v0 ["value_comparison_operator"]), one (k0 .soqlLiteral)],
   [one (v0 ["set_comparison_operator"]), one (k0 .setValue)]]

/-- Productions of the nonterminals. -/
def prod : NT → Shape
  | .selectedFields => .alts false [[sep1 (k0 .selectableExpression) ","]]
  | .withUserId => .alts false [[one (tok "UserId"), one (tok "="), one (v0 ["string_literal"])]]
  | .withHighlight => .words [("with_highlight", "HIGHLIGHT")]
  | .securityWho => .value
  | .cls c => match c with
  | .root => .alts false [[many (k0 .rootMember)]]
  | .classDeclaration => .alts false [[opt (k0 .modifiers), one (tok "class"), one (vf "name" ["identifier"]),
      opt (kx "type_parameters" .typeParameters), opt (kx "superclass" .superClass), opt (kx "interfaces" .interface),
      one (kf "body" .classBody)]]
  | .methodDeclaration =>
      let head := [opt (k0 .modifiers), one (kf "type" .unannotatedType), one (vf "name" ["identifier"]),
        one (kf "parameters" .formalParameters)]
      .alts false [head ++ [one (kf "body" .block)], head ++ [one (tok ";")]]
  | .formalParameters => .alts false [[one (tok "("), sep0 (k0 .formalParameter) ",", one (tok ")")]]
  | .formalParameter => .alts false [[opt (k0 .modifiers), one (kf "type" .unannotatedType),
      one (vf "name" ["identifier"]), opt (kx "dimensions" .dimensions)]]
  | .superClass => .alts false [[one (tok "extends"), one (k0 .type)]]
  | .modifiers => .alts false [[many (k0 .annotation), many (k0 .modifier)]]
  | .modifier => .alts false [[one (k0 .modifierKind)]]
  | .modifierKind => .words modifierWords
  | .annotation => .alts false [[one (tok "@"), one (vf "name" ["identifier"]),
      opt (kf "arguments" .annotationArgumentList)]]
  | .annotationArgumentList => .alts false [
      [one (tok "("), one (vf "value" annotationValueKinds), one (tok ")")],
      [one (tok "("), sep1 (k0 .annotationKeyValue) ",", one (tok ")")],
      [one (tok "("), one (k0 .annotationKeyValue), many (k0 .annotationKeyValue), one (tok ")")]]
  | .annotationKeyValue => .alts false [[one (vf "key" ["identifier"]), one (tok "="),
      one (vf "value" annotationValueKinds)]]
  | .classBody => .alts false [[one (tok "{"), many (k0 .classMember), one (tok "}")]]
  | .fieldDeclaration =>
      let head := [opt (k0 .modifiers), one (kf "type" .unannotatedType), sep1 (kf "declarator" .variableDeclarator) ","]
      .alts false [head ++ [one (tok ";")], head ++ [one (k0 .accessorList)]]
  | .arrayInitializer => .alts false [[one (tok "{"), sep0 (k0 .variableInitializer) ",", one (tok "}")],
      [one (tok "{"), sep1 (k0 .variableInitializer) ",", one (tok ","), one (tok "}")]]
  | .assignmentExpression => .alts false [[one (kf "left" .assignmentLeft), one (vf "operator" ["assignment_operator"]),
      one (kf "right" .expression)]]
  | .boolType => .words [("boolean_type", "boolean")]
  | .block => .alts false [[one (tok "{"), many (k0 .statement), one (tok "}")]]
  | .interface => .alts false [[one (tok "implements"), one (k0 .typeList)]]
  | .typeList => .alts false [[sep1 (k0 .type) ","]]
  | .methodInvocation =>
      let tail := [opt (kx "type_arguments" .typeArguments), one (vf "name" ["identifier"]),
        one (kf "arguments" .argumentList)]
      .alts false [[one (vf "name" ["identifier"]), one (kf "arguments" .argumentList)],
        [one (kf "object" .objectExpression), one (tok ".")] ++ tail,
        [one (kf "object" .objectExpression), one (k0 .safeNavigationOperator)] ++ tail]
  | .typeArguments => .alts false [[one (tok "<"), sep0 (k0 .type) ",", one (tok ">")]]
  | .argumentList => .alts false [[one (tok "("), sep0 (k0 .expression) ",", one (tok ")")]]
  | .super => .words [("super", "super")]
  | .this => .words [("this", "this")]
  | .binaryExpression => .alts false [[one (kf "left" .expression), one (tokF "operator" binaryOps),
      one (kf "right" .expression)]]
  | .localVariableDeclaration => .alts false [[opt (k0 .modifiers), one (kf "type" .unannotatedType),
      sep1 (kf "declarator" .variableDeclarator) ",", one (tok ";")]]
  | .variableDeclarator => .alts false [[one (vf "name" ["identifier"])],
      [one (vf "name" ["identifier"]), one (v0 ["assignment_operator"]), one (kf "value" .expression)]]
  | .genericType => .alts false [[one (v0 ["type_identifier"]), one (k0 .typeArguments)],
      [one (k0 .scopedTypeIdentifier), one (k0 .typeArguments)]]
  | .ifStatement =>
      let head := [one (tok "if"), one (kf "condition" .parenthesizedExpression), one (kf "consequence" .statement)]
      .alts false [head,
        head ++ [one ⟨false, [none], ["else"], some (.cls .valueNode)⟩, one (kf "alternative" .statement)]]
  | .parenthesizedExpression => .alts false [[one (tok "("), one (k0 .expression), one (tok ")")]]
  | .forStatement =>
      let tail := [opt (kf "update" .expression), one (tok ")"), one (kf "body" .statement)]
      .alts false [
        [one (tok "for"), one (tok "("), one (kf "init" .localVariableDeclaration), one (kf "condition" .expression),
          one (tok ";")] ++ tail,
        [one (tok "for"), one (tok "("), one (kf "init" .localVariableDeclaration), one (tok ";")] ++ tail,
        [one (tok "for"), one (tok "("), sep1 (kf "init" .expression) ",", one (tok ";"),
          one (kf "condition" .expression), one (tok ";")] ++ tail,
        [one (tok "for"), one (tok "("), one (tok ";"), one (kf "condition" .expression), one (tok ";")] ++ tail,
        [one (tok "for"), one (tok "("), one (tok ";"), one (tok ";")] ++ tail]
  | .enhancedForStatement => .alts false [[one (tok "for"), one (tok "("), one (kf "type" .unannotatedType),
      one (vf "name" ["identifier"]), one (tok ":"), one (kf "value" .expression), one (tok ")"),
      one (kf "body" .statement)]]
  | .updateExpression | .updateExpressionVariant => .alts false [
      [one (tokF "operator" ["++", "--"]), one (kf "operand" .expression)],
      [one (kf "operand" .expression), one (tokF "operator" ["++", "--"])]]
  | .scopedTypeIdentifier =>
      let tail := [one (tok "."), many (k0 .annotation), one (v0 ["type_identifier"])]
      .alts false [one (v0 ["type_identifier"]) :: tail, one (k0 .scopedTypeIdentifier) :: tail,
        one (k0 .genericType) :: tail]
  | .constructorDeclaration => .alts false [[opt (k0 .modifiers), opt (kx "type_parameters" .typeParameters),
      one (vf "name" ["identifier"]), one (kf "parameters" .formalParameters), one (kf "body" .constructorBody)]]
  | .constructorBody => .alts false [[one (tok "{"), many (k0 .statement), one (tok "}")],
      [one (tok "{"), one (k0 .constructInvocation), many (k0 .statement), one (tok "}")]]
  | .constructInvocation => .alts false [
      [opt (kx "type_arguments" .typeArguments), one (kf "constructor" .this), one (kf "arguments" .argumentList),
        one (tok ";")],
      [opt (kx "type_arguments" .typeArguments), one (kf "constructor" .super), one (kf "arguments" .argumentList),
        one (tok ";")]]
  | .typeParameters => .alts false [[one (tok "<"), sep1 (k0 .typeParameter) ",", one (tok ">")]]
  | .typeParameter => .alts false [[many (k0 .annotation), one (v0 ["type_identifier"])]]
  | .objectCreationExpression => .alts false [[one (tok "new"), opt (kx "type_arguments" .typeArguments),
      one (kf "type" .unannotatedType), one (kf "arguments" .argumentList), opt (k0 .classBody)]]
  | .runAsStatement => .alts false [[one (tok "System.runAs"), one (kf "user" .parenthesizedExpression),
      one (k0 .block)]]
  | .doStatement => .alts false [[one (tok "do"), one (kf "body" .block), one (tok "while"),
      one (kf "condition" .parenthesizedExpression), one (tok ";")]]
  | .whileStatement => .alts false [[one (tok "while"), one (kf "condition" .parenthesizedExpression),
      one (kf "body" .statement)]]
  | .unaryExpression => .alts false [[one (tokF "operator" ["+", "-", "!", "~"]), one (kf "operand" .expression)]]
  | .fieldAccess => .alts false [
      [one (kf "object" .objectExpression), one (tok "."), one (kf "field" .fieldOption)],
      [one (kf "object" .objectExpression), one (k0 .safeNavigationOperator), one (kf "field" .fieldOption)]]
  | .enumDeclaration => .alts false [[opt (k0 .modifiers), one (tok "enum"), one (vf "name" ["identifier"]),
      opt (kx "interfaces" .interface), one (kf "body" .enumBody)]]
  | .enumBody => .alts false [[one (tok "{"), sep0 (k0 .enumConstant) ",", one (tok "}")],
      [one (tok "{"), sep1 (k0 .enumConstant) ",", one (tok ","), one (tok "}")]]
  | .enumConstant => .alts false [[opt (k0 .modifiers), one (vf "name" ["identifier"])]]
  | .dmlExpression | .dmlExpressionVariant => .alts false [
      [one (k0 .dmlType), opt (k0 .dmlSecurityMode), one (kf "target" .expression)],
      [one (k0 .dmlType), opt (k0 .dmlSecurityMode), one (kf "target" .expression),
        one (kf "upsert_key" .unannotatedType)],
      [one (k0 .dmlType), opt (k0 .dmlSecurityMode), one (kf "target" .expression),
        one (kf "merge_with" .expression)]]
  | .dmlSecurityMode => .alts false [[one (tok "as"), one ⟨true, [none], ["user", "system"], some .securityWho⟩]]
  | .dmlType => .alts false [[one (k0 .dmlTypeVariant)]]
  | .dmlTypeVariant => .words dmlWords
  | .arrayAccess => .alts false [[one (kf "array" .primaryExpression), one (tok "["), one (kf "index" .expression),
      one (tok "]")]]
  | .arrayCreationExpression => .alts false [
      [one (tok "new"), one (kf "type" .simpleType), one (kf "dimensions" .dimensionsExpr),
        many (kf "dimensions" .dimensionsExpr), opt (kf "dimensions" .dimensions)],
      [one (tok "new"), one (kf "type" .simpleType), one (kf "value" .arrayInitializer)],
      [one (tok "new"), one (kf "type" .simpleType), one (kf "dimensions" .dimensions),
        one (kf "value" .arrayInitializer)]]
  | .dimensions => .alts false [[one (tok "["), one (tok "]")]]
  | .dimensionsExpr => .alts false [[one (tok "["), one (k0 .expression), one (tok "]")]]
  | .returnStatement => .alts false [[one (tok "return"), one (k0 .expression), one (tok ";")],
      [one (tok "return"), one (tok ";")]]
  | .ternaryExpression => .alts false [[one (kf "condition" .expression), one (tok "?"),
      one (kf "consequence" .expression), one (tok ":"), one (kf "alternative" .expression)]]
  | .tryStatement => .alts false [
      [one (tok "try"), one (kf "body" .block), one (k0 .catchClause), many (k0 .catchClause)],
      [one (tok "try"), one (kf "body" .block), many (k0 .catchClause), one (k0 .finallyClause)]]
  | .catchClause => .alts false [[one (tok "catch"), one (tok "("), one (k0 .formalParameter), one (tok ")"),
      one (kf "body" .block)]]
  | .finallyClause => .alts false [[one (tok "finally"), one (k0 .block)]]
  | .staticInitializer => .alts false [[one (tok "static"), one (k0 .block)]]
  | .interfaceDeclaration => .alts false [[opt (k0 .modifiers), one (tok "interface"), one (vf "name" ["identifier"]),
      opt (kx "type_parameters" .typeParameters), opt (k0 .extendsInterface), one (kf "body" .interfaceBody)]]
  | .extendsInterface => .alts false [[one (tok "extends"), one (k0 .typeList)]]
  | .interfaceBody => .alts false [[one (tok "{"), many (k0 .interfaceMember), one (tok "}")]]
  | .constantDeclaration => .alts false [[opt (k0 .modifiers), one (kf "type" .unannotatedType),
      sep1 (kf "declarator" .variableDeclarator) ",", one (tok ";")]]
  | .accessorList => .alts false [[one (tok "{"), one (k0 .accessorDeclaration), many (k0 .accessorDeclaration),
      one (tok "}")]]
  | .accessorDeclaration => .alts false [
      [opt (k0 .modifiers), one (tokF "accessor" ["get", "set"]), one (kf "body" .block)],
      [opt (k0 .modifiers), one (tokF "accessor" ["get", "set"]), one (tok ";")]]
  | .castExpression => .alts false [[one (tok "("), one (kf "type" .type), one (tok ")"),
      one (kf "value" .expression)]]
  | .throwStatement => .alts false [[one (tok "throw"), one (k0 .expression), one (tok ";")]]
  | .breakStatement => .alts false [[one (tok "break"), one (tok ";")],
      [one (tok "break"), one (v0 ["identifier"]), one (tok ";")]]
  | .continueStatement => .alts false [[one (tok "continue"), one (tok ";")],
      [one (tok "continue"), one (v0 ["identifier"]), one (tok ";")]]
  | .switchExpression => .alts false [[one (tok "switch"), one (tok "on"), one (kf "condition" .expression),
      one (kf "body" .switchBlock)]]
  | .switchBlock => .alts false [[one (tok "{"), one (k0 .switchRule), many (k0 .switchRule), one (tok "}")]]
  | .switchRule => .alts false [[one (k0 .switchLabel), one (k0 .block)]]
  | .switchLabel => .alts false [[one (tok "when"), one (tok "else")], [one (tok "when"), one (k0 .whenSObjectType)],
      [one (tok "when"), sep1 (k0 .expression) ","]]
  | .whenSObjectType => .alts false [[one (k0 .unannotatedType), one (v0 ["identifier"])]]
  | .instanceOfExpression => .alts false [[one (kf "left" .expression), one (tok "instanceof"),
      one (kf "right" .type)]]
  | .versionExpression => .alts false [
      [one (tok "Package.Version."), one (vf "version_num" ["int", "decimal_floating_point_literal", "decimal"])],
      [one (tok "Package.Version."), one (tok "Request")]]
  | .javaFieldAccess => .alts false [[one (tok "java"), one (tok ":"), one (k0 .fieldAccess)]]
  | .javaType => .alts false [[one (tok "java"), one (tok ":"), one (k0 .scopedTypeIdentifier)]]
  | .arrayType => .alts false [[one (kf "element" .unannotatedType), one (kf "dimensions" .dimensions)]]
  | .triggerDeclaration => .alts false [[one (tok "trigger"), one (vf "name" ["identifier"]), one (tok "on"),
      one (vf "object" ["identifier"]), one (tok "("), sep1 (k0 .triggerEvent) ",", one (tok ")"),
      one (kf "body" .triggerBody)]]
  | .triggerEvent => .alts false [[one (k0 .triggerEventVariant)]]
  | .triggerEventVariant => .words triggerWords
  | .triggerBody => .alts false [[one (k0 .block)]]
  | .queryExpression => .alts false [[one (tok "["), one (k0 .soqlQueryBody), one (tok "]")],
      [one (tok "["), one (k0 .soslQueryBody), one (tok "]")]]
  | .soslQueryBody => .alts false [[one (k0 .findClause), opt (k0 .inClause), opt (k0 .returningClause),
      many (k0 .soslWithClause), opt (k0 .soslUsingClause), opt (k0 .limitClause), opt (k0 .updateClause)]]
  | .findClause => .alts false [[one (tok "FIND"), one (k0 .boundApexExpression)],
      [one (tok "FIND"), one (tok "'"), one (v0 ["term"]), one (tok "'")]]
  | .inClause => .alts false [[one (tok "IN"), one (v0 ["in_type"]), one (tok "FIELDS")]]
  | .returningClause => .alts false [[one (tok "RETURNING"), sep1 (k0 .sObjectReturn) ","]]
  | .sObjectReturn => .alts false [[one (v0 ["identifier"])],
      [one (v0 ["identifier"]), one (tok "("), one ⟨true, [none], ["selected_fields"], some .selectedFields⟩,
        opt (k0 .usingClause), opt (k0 .whereClause), opt (k0 .orderByClause), opt (k0 .limitClause),
        opt (k0 .offsetClause), one (tok ")")]]
  | .soqlQueryBody => .alts false [[one (kf "select_clause" .selectClause), one (kf "from_clause" .fromClause),
      opt (kf "where_clause" .whereClause), opt (kf "with_clause" .soqlWithClause),
      opt (kf "group_by_clause" .groupByClause), opt (kf "order_by_clause" .orderByClause),
      opt (kf "limit_clause" .limitClause), opt (kf "offset_clause" .offsetClause),
      opt (kf "all_rows_clause" .allRowsClause), opt (k0 .forClause)]]
  | .fromClause => .alts false [[one (tok "FROM"), one (k0 .storageVariant)]]
  | .storageAlias => .alts false [[one (k0 .storageIdentifier), one (v0 ["identifier"])]]
  | .limitClause => .alts false [[one (tok "LIMIT"), one (k0 .limitValue)]]
  | .updateClause => .alts false [[one (tok "UPDATE"), sep1 (v0 ["update_type"]) ","]]
  | .boundApexExpression => .alts false [[one (tok ":"), one (k0 .expression)]]
  | .soslUsingClause => .alts false [[one (tok "USING"), one (k0 .usingSearch)]]
  | .usingSearch => .words [("using_phrase_search", "PHRASE SEARCH"), ("using_advanced_search", "ADVANCED SEARCH")]
  | .usingClause => .alts false [[one (tok "USING"), one (k0 .usingClauseOption)]]
  | .usingScopeClause => .alts false [[one (tok "SCOPE"), one (v0 ["using_scope_type"])]]
  | .usingListviewClause => .alts false [[one (tok "ListView"), one (tok "="), one (v0 ["identifier"])]]
  | .whereClause => .alts false [[one (tok "WHERE"), one (k0 .booleanExpression)]]
  | .comparisonExpression => .alts false (comparisonTails.map (one (k0 .valueExpression) :: ·))
  | .comparison => .alts false (comparisonTails.map (one (k0 .valueExpression) :: ·) ++
      comparisonTails.map (one (tok "NETWORK") :: ·))
  | .comparableList => .alts false [[one (tok "("), sep1 (k0 .comparableListValue) ",", one (tok ")")]]
  | .orderByClause => .alts false [[one (tok "ORDER"), one (tok "BY"), sep1 (k0 .orderExpression) ","]]
  | .orderExpression => .alts false [[one (k0 .valueExpression), opt (v0 ["order_direction"]),
      opt (v0 ["order_null_direction"])]]
  | .subQuery => .alts false [[one (tok "("), one (k0 .soqlQueryBody), one (tok ")")]]
  | .mapCreationExpression => .alts false [[one (tok "new"), one (kf "type" .simpleType),
      one (kf "value" .mapInitializer)]]
  | .mapInitializer => .alts false [[one (tok "{"), sep0 (k0 .mapKeyInitializer) ",", one (tok "}")]]
  | .mapKeyInitializer => .alts false [[one (k0 .expression), one (tok "=>"), one (k0 .expression)]]
  | .groupByClause => .alts false [[one (tok "GROUP"), one (tok "BY"), sep1 (k0 .valueExpression) ",",
      opt (k0 .havingClause)]]
  | .havingClause => .alts false [[one (tok "HAVING"), one (k0 .booleanExpression)]]
  | .soslWithClause => .alts false [[one (tok "WITH"), one (k0 .soslWithType)]]
  | .soqlWithClause => .alts false [[one (tok "WITH"), one (k0 .soqlWithType)]]
  | .soqlWithType | .soqlWithTypeVariant =>
      .alts true [[one ⟨true, [none], ["with_user_id_type"], some .withUserId⟩]]
  | .soslWithType => .alts false [[one ⟨true, [none], ["with_highlight"], some .withHighlight⟩],
      [one (k0 .withDataCatExpression)], [one (k0 .withDivisionExpression)], [one (k0 .withSnippetExpression)],
      [one (k0 .withNetworkExpression)], [one (k0 .withMetadataExpression)],
      [one (k0 .withSpellCorrectionExpression)], [one (k0 .withPriceBookExpression)]]
  | .withDataCatExpression => .alts false [[one (tok "DATA"), one (tok "CATEGORY"), sep1 (k0 .withDataCatFilter) "AND"]]
  | .withDataCatFilter =>
      let ty : Atom := ⟨true, [none], ["with_data_cat_filter_type"], some (.cls .valueNodeUpperCase)⟩
      .alts false [[one (v0 ["identifier"]), one ty, one (v0 ["identifier"])],
        [one (v0 ["identifier"]), one ty, one (tok "("), one (v0 ["identifier"]), one (tok ","),
          sep1 (v0 ["identifier"]) ",", one (tok ")")]]
  | .withDivisionExpression => .alts false [[one (tok "DIVISION"), one (tok "="), one (k0 .boundApexExpression)],
      [one (tok "DIVISION"), one (tok "="), one (v0 ["string_literal"])]]
  | .withSnippetExpression => .alts false [[one (tok "SNIPPET")],
      [one (tok "SNIPPET"), one (tok "("), one (tok "TARGET_LENGTH"), one (tok "="), one (v0 ["int"]), one (tok ")")]]
  | .withNetworkExpression => .alts false (comparisonTails.map (one (tok "NETWORK") :: ·))
  | .withMetadataExpression => .alts false [[one (tok "METADATA"), one (tok "="), one (v0 ["string_literal"])]]
  | .withSpellCorrectionExpression => .alts false [[one (tok "SPELL_CORRECTION"), one (tok "="),
      one (v0 ["boolean"])]]
  | .withPriceBookExpression => .alts false [[one (tok "PriceBookId"), one (tok "="), one (v0 ["string_literal"])]]
  | .dottedIdentifier => .alts false [[sep1 (v0 ["identifier"]) "."]]
  | .valueNode | .valueNodeLowerCase | .valueNodeUpperCase => .value
  | .expressionStatement => .alts false [[one (k0 .expression), one (tok ";")]]
  | .safeNavigationOperator => .words [("safe_navigation_operator", "?.")]
  | .countExpression => .alts false [[one (vf "function_name" ["identifier"]), one (tok "("), one (tok ")")]]
  | .functionExpression | .functionExpressionVariant => .alts false [
      [one (vf "function_name" ["identifier"]), one (tok "("), sep0 (k0 .valueExpression) ",", one (tok ")")],
      [one (vf "function_name" ["identifier"]), one (tok "("), one (k0 .fieldIdentifier), one (tok ","),
        one (k0 .geoLocationType), one (tok ","), one (v0 ["string_literal"]), one (tok ")")],
      [one (vf "function_name" ["identifier"]), one (tok "("), one (k0 .boundApexExpression), one (tok ","),
        one (k0 .geoLocationType), one (tok ","), one (v0 ["string_literal"]), one (tok ")")]]
  | .fieldIdentifier | .fieldIdentifierVariant | .storageIdentifier | .storageIdentifierVariant =>
      .alts false [[one (v0 ["identifier"])], [one (k0 .dottedIdentifier)]]
  | .geoLocationType | .geoLocationTypeVariant => .alts false [[one (k0 .fieldIdentifier)],
      [one (k0 .boundApexExpression)],
      [one (v0 ["identifier"]), one (tok "("), one (v0 ["decimal"]), one (tok ","), one (v0 ["decimal"]),
        one (tok ")")]]
  | .selectClause | .selectClauseVariant => .alts false [[one (tok "SELECT"), one (k0 .countExpression)],
      [one (tok "SELECT"), sep1 (k0 .selectableExpression) ","]]
  | .andExpression => .alts false [[cond ⟨true, [none], ["comparison_expression", "and_expression"],
      some (.cls .booleanExpression)⟩ ⟨true, [none], ["or_expression", "not_expression"],
      some (.cls .booleanExpression)⟩ "AND"]]
  | .orExpression => .alts false [[cond ⟨true, [none], ["comparison_expression", "or_expression"],
      some (.cls .booleanExpression)⟩ ⟨true, [none], ["and_expression", "not_expression"],
      some (.cls .booleanExpression)⟩ "OR"]]
  | .notExpression => .alts false [
      [one (tok "NOT"), one ⟨true, [none], ["comparison_expression", "not_expression"],
        some (.cls .booleanExpression)⟩],
      [one (tok "NOT"), one (tok "("), one ⟨true, [none], ["and_expression", "or_expression"],
        some (.cls .booleanExpression)⟩, one (tok ")")]]
  | .forClause => .alts false [[one (tok "FOR"), one (v0 ["for_type"])]]
  | .allRowsClause => .alts false [[one (tok "ALL"), one (tok "ROWS")]]
  | .classLiteral => .alts false [[one (k0 .unannotatedType), one (tok "."), one (tok "class")]]
  | .fieldsExpression => .alts false [[one (tok "FIELDS"), one (tok "("),
      one ⟨true, [none], ["fields_type"], some (.cls .valueNodeUpperCase)⟩, one (tok ")")]]
  | .aliasExpression => .alts false [[one (k0 .valueExpression), one (v0 ["identifier"])]]
  | .dateLiteralWithParam => .alts false [[one ⟨true, [none], ["date_literal"], some (.cls .valueNodeUpperCase)⟩,
      one (tok ":"), one (v0 ["int"])]]
  | .offsetClause => .alts false [[one (tok "OFFSET"), one (k0 .limitValue)]]
  | _ => .alts false []

/-- Node kinds of a nonterminal after following the choices (`none`: any kind, the atom restricts it). -/
def NT.kinds : NT → Option (List String)
  | .cls .valueNode | .cls .valueNodeLowerCase | .cls .valueNodeUpperCase | .securityWho => none
  | .cls c => some (kindOf c)
  | .selectedFields => some ["selected_fields"]
  | .withUserId => some ["with_user_id_type"]
  | .withHighlight => some ["with_highlight"]

/-! ### Regular expressions over atoms -/

/-- Regular expressions. -/
inductive Rx where
  | none
  | eps
  | atom (a : Atom)
  | seq (r s : Rx)
  | alt (r s : Rx)
  | star (r : Rx)

namespace Rx

/-- The empty word matches. -/
def nullable : Rx → Bool
  | .none => false
  | .eps => true
  | .atom _ => false
  | .seq r s => r.nullable && s.nullable
  | .alt r s => r.nullable || s.nullable
  | .star _ => true

/-- What has to follow after the atom `a`. -/
def der (a : Atom) : Rx → Rx
  | .none => .none
  | .eps => .none
  | .atom b => if b = a then .eps else .none
  | .seq r s => if r.nullable then .alt (.seq (r.der a) s) (s.der a) else .seq (r.der a) s
  | .alt r s => .alt (r.der a) (s.der a)
  | .star r => .seq (r.der a) (.star r)

/-- Atoms with which a word can begin. -/
def first : Rx → List Atom
  | .none => []
  | .eps => []
  | .atom a => [a]
  | .seq r s => if r.nullable then r.first ++ s.first else r.first
  | .alt r s => r.first ++ s.first
  | .star r => r.first

end Rx

/-- An operand of a condition: bare or in parentheses. -/
def condOperand (bare par : Atom) : Rx :=
  .alt (.atom bare) (.seq (.atom (tok "(")) (.seq (.atom par) (.atom (tok ")"))))

/-- The expression for an element of a production. -/
def Spec.rx : Spec → Rx
  | .one a => .atom a
  | .opt a => .alt (.atom a) .eps
  | .many a => .star (.atom a)
  | .sep1 a s => .seq (.atom a) (.star (.seq (.atom (tok s)) (.atom a)))
  | .sep0 a s => .alt (.seq (.atom a) (.star (.seq (.atom (tok s)) (.atom a)))) .eps
  | .cond b p s => .seq (condOperand b p) (.star (.seq (.atom (tok s)) (condOperand b p)))

/-- The expression for a production. -/
def rxSeq : List Spec → Rx
  | [] => .eps
  | s :: ss => .seq s.rx (rxSeq ss)

/-- The expression for all productions of a nonterminal. -/
def rxAlts : List (List Spec) → Rx
  | [] => .none
  | p :: ps => .alt (rxSeq p) (rxAlts ps)

/-! ### Code of a tree -/

/-- Lower case of ASCII letters. -/
def fold (s : Str) : Str := s.map Char.toLower

/-- Characters of words: letters, digits, `_` and `$`. -/
def wordChar (c : Char) : Bool := c.isAlphanum || c == '_' || c == '$'

/-- A visible character with the flag whether it continues a word, that is: it and the character directly before it are
both characters of words. -/
abbrev Letter := Char × Bool

/-- The visible characters of a text; the first argument says whether the character before it is a character of a
word. -/
def letters (w : Bool) : Str → List Letter
  | [] => []
  | c :: s => if isBlank c then letters false s else (c, w && wordChar c) :: letters (wordChar c) s

/-- Lower case of ASCII letters. -/
def foldL (s : List Letter) : List Letter := s.map (fun x => (x.1.toLower, x.2))

/-- Named leaves that are keywords or literals whose letter case does not matter in Apex. -/
def foldKinds : List String :=
  ["null_literal", "boolean", "decimal_floating_point_literal", "fields_type", "with_data_cat_filter_type",
    "date_literal", "boolean_type", "super", "this", "safe_navigation_operator", "using_phrase_search",
    "using_advanced_search", "with_highlight"] ++
  modifierWords.map (·.1) ++ triggerWords.map (·.1) ++ dmlWords.map (·.1)

mutual
/-- The visible characters of the leaves of a tree that are no comments, in order; the flag says whether the letter case
of the character is irrelevant (tokens and some keywords). -/
def code : Node → List (Bool × Char)
  | .mk _ kind named extra _ _ _ _ _ _ text children =>
    if extra then []
    else match children with
      | [] => (ink text).map (fun c => (!named || foldKinds.contains kind, c))
      | c :: cs => code c ++ codes cs
/-- `code` of siblings. -/
def codes : List Node → List (Bool × Char)
  | [] => []
  | c :: cs => code c ++ codes cs
end

mutual
/-- `code` where every leaf is split into words: a character has the flag if it continues a word of its leaf. -/
def lex : Node → List (Bool × Letter)
  | .mk _ kind named extra _ _ _ _ _ _ text children =>
    if extra then []
    else match children with
      | [] => (letters false text).map (fun c => (!named || foldKinds.contains kind, c))
      | c :: cs => lex c ++ lexs cs
/-- `lex` of siblings. -/
def lexs : List Node → List (Bool × Letter)
  | [] => []
  | c :: cs => lex c ++ lexs cs
end

/-- The characters are those of the code, up to the letter case of characters whose case does not matter. -/
def Same : Str → List (Bool × Char) → Prop
  | [], [] => True
  | c :: s, (b, d) :: k => (c = d ∨ (b = true ∧ c.toLower = d.toLower)) ∧ Same s k
  | _, _ => False

/-- The characters and the words are those of the code, up to the letter case of characters whose case does not matter. -/
def SameL : List Letter → List (Bool × Letter) → Prop
  | [], [] => True
  | c :: s, (b, d) :: k => (c = d ∨ (b = true ∧ c.1.toLower = d.1.toLower ∧ c.2 = d.2)) ∧ SameL s k
  | _, _ => False

mutual
/-- No comment in the tree. -/
def plain : Node → Bool
  | .mk _ _ _ extra _ _ _ _ _ _ _ children => !extra && plains children
/-- `plain` for siblings. -/
def plains : List Node → Bool
  | [] => true
  | c :: cs => plain c && plains cs
end

/-! ### Conformance -/

/-- The text of a token is its kind, up to letter case. -/
def tokenText (n : Node) : Bool := n.children.isEmpty && (foldL (letters false n.text) == foldL (letters false n.kind.toList))

/-- Kinds of bodies: their members are printed on lines of their own. -/
def bodyKinds : List String := ["parser_output", "class_body", "block", "interface_body", "constructor_body"]

/-- Kinds that never occur inside of words: bodies, constructors, lists, `if` statements. -/
def frameKinds : List String :=
  bodyKinds ++ ["constructor_declaration", "modifiers", "type_list", "and_expression", "or_expression", "select_clause",
    "selected_fields", "unary_expression", "update_expression", "explicit_constructor_invocation", "group_by_clause",
    "variable_declarator", "using_lookup_clause", "using_lookup_bind_clause", "switch_block", "accessor_list",
    "if_statement"]

mutual
/-- No body, constructor or list in the tree. -/
def noBody : Node → Bool
  | .mk _ kind _ _ _ _ _ _ _ _ _ children => !frameKinds.contains kind && noBodies children
/-- `noBody` for siblings. -/
def noBodies : List Node → Bool
  | [] => true
  | c :: cs => noBody c && noBodies cs
end

/-- The leaves of the node spell its text. -/
def spelled (n : Node) : Bool := plain n && noBody n && ((lex n).map (·.2) == letters false n.text)

/-- The node meets the requirements of the atom on the node itself. -/
def Atom.fits (a : Atom) (n : Node) : Bool :=
  (n.named == a.named) && a.fields.contains n.field && a.kinds.contains n.kind &&
    (a.nt.isSome || tokenText n)

/-- Kinds of nodes which are never directly followed by `,` or `;`. -/
def quietKinds : List String :=
  ["parser_output", "block", "class_body", "interface_body", "enum_body", "constructor_body", "modifiers",
    "annotation_argument_list", "while_statement", "accessor_declaration",
    "return_statement", "break_statement", "continue_statement", "switch_label", "dml_security_mode", "find_clause",
    "offset_clause", "with_type", "with_division_expression", "using_phrase_search", "using_advanced_search",
    "with_highlight", "selected_fields", "with_user_id_type", "user", "system", "value_comparison_operator",
    "set_comparison_operator", "term", "date_literal"] ++
  modifierWords.map (·.1) ++ triggerWords.map (·.1) ++ dmlWords.map (·.1)

/-- Nodes which are never directly followed by `,` or `;`: those of the quiet kinds, and declarations of local variables
except in the header of a `for` statement. -/
def Node.quiet (n : Node) : Bool :=
  quietKinds.contains n.kind || (n.kind == "local_variable_declaration" && n.field != some "init")

/-- Consecutive children that are no comments: no `,` or `;` after a quiet node, and they start in order. -/
def orderly : List Node → Bool
  | [] => true
  | [_] => true
  | a :: b :: r =>
    !(Node.quiet a && (b.kind == "," || b.kind == ";")) && decide (a.startByte < b.startByte) &&
      orderly (b :: r)

/-- Bodies in braces: comments may stand alone in them. -/
def braceKinds : List String := ["class_body", "block", "enum_body", "interface_body", "constructor_body"]

/-- The kind of the operation of a DML expression. -/
def dmlOperation (n : Node) : Option String :=
  match n.children.find? (fun c => c.kind == "dml_type") with
  | some t => (t.children.find? (fun c => c.named && !c.extra)).map (·.kind)
  | none => none

/-- Requirements on all nodes with productions:
* comments hang under no field name;
* if there are comments among the children there is also a child a comment can be attached to, or the node is a body in
  braces;
* the children that are no comments are orderly;
* `,` and `;` are tokens;
* a binary expression has an operator that is binary;
* `merge` has a second operand and nothing else has, and only `upsert` has a key;
* no comment next to the type of a `WITH` clause. -/
def sane (kind : String) (children : List Node) : Bool :=
  let kids := children.filter (fun c => !c.extra)
  children.all (fun c => !c.extra || (c.field.isNone && c.children.isEmpty && (c.kind == "line_comment" || c.kind == "block_comment"))) &&
  (children.all (fun c => !c.extra) || braceKinds.contains kind ||
    kids.any (fun c => c.named || c.kind == "," || c.kind == ";" || c.kind == "else")) &&
  orderly kids &&
  kids.all (fun c => !(c.kind == "," || c.kind == ";") || (!c.named && tokenText c)) &&
  (kind != "binary_expression" || (kids.any (fun c => c.field == some "operator") &&
    kids.all (fun c => c.field != some "operator" || binaryOps.contains c.kind))) &&
  (kids.all (fun c => c.kind != "with_type") || children.all (fun c => !c.extra))

/-- The operands of a DML expression agree with its operation. -/
def dmlSane (n : Node) : Bool :=
  n.kind != "dml_expression" ||
    match dmlOperation n with
    | some "merge" => n.children.any (fun c => c.field == some "merge_with")
    | some "upsert" => n.children.all (fun c => c.field != some "merge_with")
    | _ => n.children.all (fun c => c.field != some "merge_with" && c.field != some "upsert_key")

mutual
/-- The node matches the nonterminal. -/
def conf : Node → NT → Bool
  | .mk id kind named extra err field sr er sb eb text children, nt =>
    let n : Node := .mk id kind named extra err field sr er sb eb text children
    let core := nt.core kind
    !extra && (match core.kinds with
      | some ks => ks.contains kind
      | none => true) &&
    match prod core with
    | .value => spelled n && (core == .cls .valueNode || core == .securityWho || (lex n).all (·.1))
    | .words tbl => spelled n && (lex n).all (·.1) && tbl.any (fun e => e.1 == kind && (foldL (letters false text) == foldL (letters false e.2.toList)))
    | .alts val ps =>
      (val && spelled n && children.all (fun c => !c.named)) ||
        (sane kind children && dmlSane n && (!children.isEmpty || ink text == []) && confs children (rxAlts ps))
/-- The siblings that are no comments match the expression. -/
def confs : List Node → Rx → Bool
  | [], r => r.nullable
  | c :: cs, r =>
    if c.extra then confs cs r
    else r.first.any (fun a =>
      a.fits c && (match a.nt with
        | some nt => conf c nt
        | none => true) && confs cs (r.der a))
end

/-- The tree follows the grammar. -/
def conforms (root : Node) : Bool := root.named && conf root (.cls .root)

end Afmt.Gram
