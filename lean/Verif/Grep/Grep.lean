import Verif.Py

/-!
# Search of texts (`grep.py`)

The tree of fields is given: names, lazy creation of fields and the options' parser are left out.  Texts are lists of characters; `lower` is Python's `str.lower`.
-/

namespace Hachoir.Grep

/-- A field with its address in bits; the value of a text is `none` if it cannot be computed (field.py:120-131). -/
inductive Node where
  | text (addr : Nat) (value : Option (List Char))
  | other (addr : Nat)
  | set (addr : Nat) (fields : List Node)
  deriving Repr

/-- `Grep`, grep.py:70-74. -/
structure Options where
  pattern : Option (List Char)
  caseSensitive : Bool

/-- `Grep.match`, grep.py:85-93: `len` of no value is an error. -/
def hit (lower : List Char → List Char) (o : Options) (value : Option (List Char)) : Except PyErr Bool :=
  match value with
  | none => .error .type
  | some v =>
    if v.length = 0 then .ok false
    else
      match o.pattern with
      | none => .ok true
      | some p => if p.length = 0 then .ok true else .ok (decide (p <:+: (if o.caseSensitive then v else lower v)))

/-- What was found up to an error, if there was one. -/
abbrev Found := List (Nat × List Char) × Option PyErr

mutual
/-- The body of the loop of `Grep.grep`, grep.py:77-83. -/
def grepNode (lower : List Char → List Char) (o : Options) : Node → Found
  | .set _ fields => grep lower o fields
  | .other _ => ([], none)
  | .text addr value =>
    match hit lower o value with
    | .error e => ([], some e)
    | .ok true => ([(addr, value.getD [])], none)
    | .ok false => ([], none)

/-- `Grep.grep`, grep.py:76-83. -/
def grep (lower : List Char → List Char) (o : Options) : List Node → Found
  | [] => ([], none)
  | n :: ns =>
    match grepNode lower o n with
    | (found, some e) => (found, some e)
    | (found, none) => (found ++ (grep lower o ns).1, (grep lower o ns).2)
end

/-- `ConsoleGrep.searchFile`, grep.py:142-147: the pattern is made small unless the case matters. -/
def options (lower : List Char → List Char) (pattern : Option (List Char)) (caseSensitive : Bool) : Options :=
  match pattern with
  | some p => ⟨some (if p.length ≠ 0 ∧ !caseSensitive then lower p else p), caseSensitive⟩
  | none => ⟨none, caseSensitive⟩

/-- The address shown, grep.py:121-125. -/
def addrText (addr : Nat) : List Char :=
  if addr % 8 = 0 then (toString (addr / 8)).toList
  else (toString (addr / 8)).toList ++ '.' :: (toString (addr % 8)).toList

end Hachoir.Grep
