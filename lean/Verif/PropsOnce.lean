import Verif.PropsFormat

/-!
# Property C19: each comment is printed exactly once
-/

namespace Afmt

/-- `class A {⏎ Object x = [SELECT Id FROM B WITH <comment> SECURITY_ENFORCED];⏎ }` -/
def exWith (comment : List Node) : Node := exNode 1 "parser_output" 0 2 "" [
  exNode 2 "class_declaration" 0 2 "" [
    exTok 3 "class" 0, exField "name" (exNode 4 "identifier" 0 0 "A" []),
    exField "body" (exNode 5 "class_body" 0 2 "" [
      exTok 6 "{" 0,
      exNode 7 "field_declaration" 1 1 "" [
        exField "type" (exNode 8 "type_identifier" 1 1 "Object" []),
        exField "declarator" (exNode 9 "variable_declarator" 1 1 "" [
          exField "name" (exNode 10 "identifier" 1 1 "x" []),
          exNode 11 "assignment_operator" 1 1 "=" [],
          exField "value" (exNode 12 "query_expression" 1 1 "" [
            exTok 13 "[" 1,
            exNode 14 "soql_query_body" 1 1 "" [
              exField "select_clause" (exNode 15 "select_clause" 1 1 "" [
                exTok 16 "SELECT" 1, exNode 17 "field_identifier" 1 1 "" [exNode 18 "identifier" 1 1 "Id" []]]),
              exField "from_clause" (exNode 19 "from_clause" 1 1 "" [
                exTok 20 "FROM" 1, exNode 21 "storage_identifier" 1 1 "" [exNode 22 "identifier" 1 1 "B" []]]),
              exField "with_clause" (exNode 23 "with_clause" 1 1 "" ([exTok 24 "WITH" 1] ++ comment ++ [
                exNode 25 "with_type" 1 1 "SECURITY_ENFORCED" [exTok 26 "SECURITY_ENFORCED" 1]]))],
            exTok 27 "]" 1])]),
        exTok 28 ";" 1],
      exTok 29 "}" 2])]]

example : formatTree true 30 ⟨80, 2⟩ (exWith []) =
    .ok "class A {\n  Object x = [SELECT Id FROM B WITH SECURITY_ENFORCED];\n}\n".toList := by decide

/-- **C19 is false**: a comment in front of the type of a SOQL `WITH` clause is printed twice. -/
theorem C19_comment_printed_twice : formatTree true 30 ⟨80, 2⟩ (exWith [exComment 30 false 1 "/*c*/"]) =
    .ok ("class A {\n  Object x = [\n    SELECT Id\n    FROM B\n    WITH /*c*/ /*c*/ SECURITY_ENFORCED\n  ];\n" ++
      "}\n").toList ∧
    ((exWith [exComment 30 false 1 "/*c*/"]).extras.map (fun o => String.ofList o.node.text)) = ["/*c*/"] := by decide

end Afmt
