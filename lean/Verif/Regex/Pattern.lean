import Verif.Regex.Regex

/-!
Model of `PatternMatching`, hachoir/regex/pattern.py 55-180: several text and
regular expression patterns searched at once.  The search itself is done by the
compiled regular expression of Python's `re` module and is not modelled.
-/

namespace Hachoir.Regex

/-- `PatternMatching.string_patterns`, `string_dict` and `regex_patterns`,
pattern.py 77-81; `U` is the type of the user data attached to a pattern. -/
structure Patterns (U : Type) where
  strings : List (List Nat × U)
  dict : List (List Nat × U)
  regexes : List (Rx × U)

/-- `PatternMatching()`. -/
def Patterns.new (U : Type) : Patterns U := ⟨[], [], []⟩

/-- `addString`, pattern.py 113-121. -/
def Patterns.addString {U : Type} (p : Patterns U) (text : List Nat) (user : U) : Patterns U :=
  if text ∈ p.dict.map Prod.fst then p
  else { p with strings := p.strings ++ [(text, user)], dict := p.dict ++ [(text, user)] }

/-- Results of `addRegex`, pattern.py 123-129, for a parsed expression. -/
inductive AddResult (U : Type) where
  | ok (p : Patterns U)
  | valueError
  | typeError

/-- `addRegex`, pattern.py 123-129. -/
def Patterns.addRegex {U : Type} (p : Patterns U) (r : Rx) (user : U) : AddResult U :=
  match maxLength r with
  | .num _ => .ok { p with regexes := p.regexes ++ [(r, user)] }
  | .unlimited => .valueError
  | .typeError => .typeError

/-- One step of the loops of `commit`: `regex |= r` or `regex = r`. -/
def orNext (same : List Item → List Item → Bool) (n : Nat) : Option Rx → Rx → Option Rx
  | none, r => some r
  | some x, r => bar same n x r

/-- The two loops of `commit` over the expressions to merge. -/
def mergeAll (same : List Item → List Item → Bool) (n : Nat) : Option Rx → List Rx →
    Option (Option Rx)
  | x, [] => some x
  | x, r :: l =>
    match orNext same n x r with
    | none => none
    | some y => mergeAll same n (some y) l

/-- The value of a maximum length that is a number. -/
def Len.val : Len → Nat
  | .num k => k
  | _ => 0

/-- `commit`, pattern.py 88-111: the merged expression and `max_length`.  Outer
`none`: the recursion budget of `|` was too small. -/
def Patterns.commit {U : Type} (same : List Item → List Item → Bool) (n : Nat)
    (p : Patterns U) : Option (Rx × Nat) :=
  match mergeAll same n none
      (p.strings.map (fun x => createString x.1) ++ p.regexes.map Prod.fst) with
  | none => none
  | some r =>
    let length := p.strings.foldl (fun m x => max m x.1.length) 0
    let length := p.regexes.foldl (fun m x => max m (maxLength x.1).val) length
    some (r.getD .empty, length)

/-- `getPattern`, pattern.py 131-146: the dictionary, then the first regular
expression that matches; `hit` is the answer of `re.match`.  `none` is
`KeyError`. -/
def Patterns.getPattern {U : Type} (hit : Rx → List Nat → Bool) (p : Patterns U)
    (data : List Nat) : Option U :=
  match p.dict.find? (fun x => x.1 = data) with
  | some x => some x.2
  | none => (p.regexes.find? (fun x => hit x.1 data)).map Prod.snd

end Hachoir.Regex
