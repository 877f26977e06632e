import Verif.Py

/-!
# Descriptors of Java classes

/repo/hachoir/parser/program/java.py:92-175.  Texts are lists of characters.
-/

set_option linter.unusedVariables false

namespace Hachoir.Formats.Java
open Hachoir

abbrev Str := List Char

/-- `code_to_type_name`, java.py:92-102. -/
def codeName : Char → Option Str
  | 'B' => some "byte".toList
  | 'C' => some "char".toList
  | 'D' => some "double".toList
  | 'F' => some "float".toList
  | 'I' => some "int".toList
  | 'J' => some "long".toList
  | 'S' => some "short".toList
  | 'Z' => some "boolean".toList
  | 'V' => some "void".toList
  | _ => none

/-- The loop of java.py:111-114, which counts the brackets at the beginning. -/
def skipBrackets : Str → Nat × Str
  | '[' :: cs => ((skipBrackets cs).1 + 1, (skipBrackets cs).2)
  | cs => (0, cs)

/-- `text.find(c)`. -/
def find (c : Char) (text : Str) : Int :=
  match text.findIdx? (· == c) with
  | some i => i
  | none => -1

/-- `text.replace("/", ".")`. -/
def dots (text : Str) : Str := text.map fun c => if c = '/' then '.' else c

/-- `n * "[]"`. -/
def brackets (n : Nat) : Str := (List.replicate n ['[', ']']).flatten

/-- `eat_descriptor`, java.py:105-128.  `find` does not raise. -/
def eatDescriptor (descr : Str) : Except PyErr (Str × Str) :=
  match skipBrackets descr with
  | (_, []) => .error .index
  | (n, c :: cs) =>
    if c = 'L' then
      let e := find ';' (c :: cs)
      .ok (dots (pySlice (c :: cs) 1 e) ++ brackets n, (pySlice (c :: cs) e (cs.length + 1)).drop 1)
    else
      match codeName c with
      | none => .error .parser
      | some t => .ok (dots t ++ brackets n, cs)

/-- `parse_field_descriptor`, java.py:131-142; no name and an empty name are the same. -/
def parseField (descr : Str) (name : Str) : Except PyErr Str :=
  if descr = [] then .error .assertion
  else
    match eatDescriptor descr with
    | .error x => .error x
    | .ok (type, tail) =>
      if tail ≠ [] then .error .assertion
      else if name ≠ [] then .ok (type ++ ' ' :: name)
      else .ok type

/-- The loop of `parse_method_descriptor`, java.py:152-154: the types of the parameters and the
text from the closing bracket on.  The number is a bound of the steps: every step shortens the
text, `C88_steps`. -/
def eatParams : Nat → Str → Except PyErr (List Str × Str)
  | 0, _ => .error .endless
  | _ + 1, [] => .error .index
  | n + 1, c :: cs =>
    if c = ')' then .ok ([], c :: cs)
    else
      match eatDescriptor (c :: cs) with
      | .error x => .error x
      | .ok (param, tail) =>
        match eatParams n tail with
        | .error x => .error x
        | .ok (params, rest) => .ok (param :: params, rest)

/-- `", ".join(params)`. -/
def joinComma : List Str → Str
  | [] => []
  | [p] => p
  | p :: ps => p ++ (", ".toList ++ joinComma ps)

/-- `parse_method_descriptor`, java.py:145-162. -/
def parseMethod (descr : Str) (name : Str) : Except PyErr Str :=
  match descr with
  | [] => .error .assertion
  | c :: descr =>
    if c ≠ '(' then .error .assertion
    else
      match eatParams (descr.length + 1) descr with
      | .error x => .error x
      | .ok (params, rest) =>
        match eatDescriptor (rest.drop 1) with
        | .error x => .error x
        | .ok (type, tail) =>
          if tail ≠ [] then .error .assertion
          else if name ≠ [] then .ok (type ++ ' ' :: (name ++ '(' :: (joinComma params ++ [')'])))
          else .ok (type ++ " (".toList ++ joinComma params ++ [')'])

/-- `parse_any_descriptor`, java.py:165-174. -/
def parseAny (descr : Str) (name : Str) : Except PyErr Str :=
  match descr with
  | [] => .error .assertion
  | c :: cs => if c = '(' then parseMethod (c :: cs) name else parseField (c :: cs) name

end Hachoir.Formats.Java
