/-! Specification of the layout of texts as Rust's `{:#?}` prints them, in terms of the text `{:?}` prints for the same
value. Both directions work on characters only and know nothing of the crate's types. Nothing in this file is a function of
the crate. -/
namespace ZkEvm.Spec

/-- A new line, indented by four spaces for each open bracket -/
def newLine (depth : Nat) : List Char := '\n' :: List.replicate (4 * depth) ' '

/-- Lay out a `{:?}` text, `depth` brackets being open: what stands between two brackets is put on lines of its own, one part
to a line, each part followed by a comma; the closing bracket begins a line. Only `[]` stays as it is. -/
def layOut : Nat → List Char → List Char
  | _, [] => []
  | depth, '[' :: ']' :: s => '[' :: ']' :: layOut depth s
  | depth, '[' :: s => '[' :: newLine (depth + 1) ++ layOut (depth + 1) s
  | depth, '(' :: s => '(' :: newLine (depth + 1) ++ layOut (depth + 1) s
  | depth, '{' :: ' ' :: s => '{' :: newLine (depth + 1) ++ layOut (depth + 1) s
  | depth, ',' :: ' ' :: s => ',' :: newLine depth ++ layOut depth s
  | depth, ']' :: s => ',' :: newLine (depth - 1) ++ ']' :: layOut (depth - 1) s
  | depth, ')' :: s => ',' :: newLine (depth - 1) ++ ')' :: layOut (depth - 1) s
  | depth, ' ' :: '}' :: s => ',' :: newLine (depth - 1) ++ '}' :: layOut (depth - 1) s
  | depth, c :: s => c :: layOut depth s

/-- Take the indentation away; the first argument says whether a line begins here. -/
def dropIndent : Bool → List Char → List Char
  | _, [] => []
  | lineStart, c :: s => if lineStart && c == ' ' then dropIndent true s else c :: dropIndent (c == '\n') s

/-- Put the lines of a text without indentation on one line, as `{:?}` would. -/
def joinLines : List Char → List Char
  | [] => []
  | ',' :: '\n' :: ')' :: s => ')' :: joinLines s
  | ',' :: '\n' :: ']' :: s => ']' :: joinLines s
  | ',' :: '\n' :: '}' :: s => ' ' :: '}' :: joinLines s
  | ',' :: '\n' :: s => ',' :: ' ' :: joinLines s
  | '{' :: '\n' :: s => '{' :: ' ' :: joinLines s
  | '\n' :: s => joinLines s
  | c :: s => c :: joinLines s

/-- The text on one line that a laid out text stands for -/
def onOneLine (s : List Char) : List Char := joinLines (dropIndent false s)

end ZkEvm.Spec
