import Verif.Regex.Regex

/-!
Model of hachoir/regex/parser.py (text to regular expression object) and of the
text of strings and ranges (`escapeRegex`, `RegexRange._str`, regex.py 64-71 and
551-567).  A text is a list of code points.
-/

namespace Hachoir.Regex

/-- Exceptions raised by the parser.  `noneRepeat` stands for the useless object
`RegexRepeat(None, ...)` built for a text such as `{2}` (parser.py 149-152). -/
inductive PErr where
  | syntaxError
  | notImplemented
  | valueError
  | typeError
  | indexError
  | assertion
  | noneRepeat
deriving Repr, DecidableEq

/-- `REGEX_COMMAND_CHARACTERS`, parser.py 15: `.^$[](){}|+?*\`. -/
def commands : List Nat := [46, 94, 36, 91, 93, 40, 41, 123, 125, 124, 43, 63, 42, 92]

/-- `escapeRegex`, regex.py 64-71. -/
def escapeRegex : List Nat → List Nat
  | [] => []
  | c :: t => if c ∈ commands then 92 :: c :: escapeRegex t else c :: escapeRegex t

/-- `RegexRangeItem.__str__`, regex.py 449-458. -/
def Item.str (a : Item) : List Nat :=
  if a.cmin ≠ a.cmax then
    if a.cmin + 1 = a.cmax then [a.cmin, a.cmax] else [a.cmin, 45, a.cmax]
  else [a.cmin]

/-- `RegexRange._str`, regex.py 551-567. -/
def rangeStr (ranges : List Item) (exclude : Bool) : List Nat :=
  let content := ranges.map Item.str
  let suffix := if [45] ∈ content then [45] else []
  let content := content.erase [45]
  let prefix_ := if [93] ∈ content then [93] else []
  let content := content.erase [93]
  let text := prefix_ ++ content.flatten ++ suffix
  if exclude then [91, 94] ++ text ++ [93] else [91] ++ text ++ [93]

/-- The loop of `parseRange`, parser.py 43-60.  The first argument bounds the
number of steps (every step advances `index`). -/
def rangeLoop (text : List Nat) : Nat → Nat → List Item → Except PErr (List Item × Nat)
  | 0, index, acc => .ok (acc, index)
  | n + 1, index, acc =>
    match text[index]? with
    | none => .ok (acc, index)
    | some c =>
      if c = 93 then .ok (acc, index)
      else
        match text[index + 1]? with
        | none => rangeLoop text n (index + 1) (acc ++ [charItem c])
        | some d =>
          if c = 92 then rangeLoop text n (index + 2) (acc ++ [charItem d])
          else if c = 45 ∧ d = 93 then .ok (acc, index)
          else
            match text[index + 2]?, text[index + 3]? with
            | some e, some _ =>
              if d = 45 ∧ e ≠ 93 then
                if e < c then .error .typeError
                else rangeLoop text n (index + 3) (acc ++ [⟨c, e⟩])
              else rangeLoop text n (index + 1) (acc ++ [charItem c])
            | _, _ => rangeLoop text n (index + 1) (acc ++ [charItem c])

/-- `parseRange` after the test for `^`, parser.py 40-66. -/
def rangeBody (text : List Nat) (index : Nat) (exclude : Bool) : Except PErr (Rx × Nat) :=
  match text[index]? with
  | none => .error .indexError
  | some c1 =>
    let acc := if c1 = 93 then [charItem 93] else []
    let index := if c1 = 93 then index + 1 else index
    match rangeLoop text text.length index acc with
    | .error e => .error e
    | .ok (acc, index) =>
      let acc' := if text[index]? = some 45 then acc ++ [charItem 45] else acc
      let index' := if text[index]? = some 45 then index + 1 else index
      if text[index']? = some 93 then .ok (mkRange acc' exclude, index' + 1)
      else .error .syntaxError

/-- `parseRange`, parser.py 18-66. -/
def parseRange (text : List Nat) (start : Nat) : Except PErr (Rx × Nat) :=
  match text[start]? with
  | none => .error .indexError
  | some c0 =>
    if c0 = 94 then rangeBody text (start + 1) true else rangeBody text start false

/-- Value and end of the run of digits at `index`. -/
def digits (text : List Nat) : Nat → Nat → Nat → Nat × Nat
  | 0, index, v => (v, index)
  | n + 1, index, v =>
    match text[index]? with
    | some c => if 48 ≤ c ∧ c ≤ 57 then digits text n (index + 1) (10 * v + (c - 48)) else (v, index)
    | none => (v, index)

/-- `parseRepeat`, parser.py 106-126 (`([0-9]+)(,[0-9]*)?}`). -/
def parseRepeat (text : List Nat) (start : Nat) : Except PErr (Nat × Option Nat × Nat) :=
  let (rmin, i) := digits text text.length start 0
  if i = start then .error .syntaxError
  else if text[i]? = some 125 then .ok (rmin, some rmin, i + 1)
  else if text[i]? = some 44 then
    let (rmax, k) := digits text text.length (i + 1) 0
    if text[k]? = some 125 then .ok (rmin, if k = i + 1 then none else some rmax, k + 1)
    else .error .syntaxError
  else .error .syntaxError

/-- `if last: regex = regex + last`. -/
def addLast (regex : Rx) : Option Rx → Rx
  | none => regex
  | some l => andOp regex l

section
variable (same : List Item → List Item → Bool) (budget : Nat)

mutual
/-- The loop of `_parse`, parser.py 138-187; `until_` says that `until` is `"|)"`.
The numeric argument bounds the recursion: `none` is a recursion (or loop) that
did not end within the bound. -/
def parseLoop : Nat → List Nat → Bool → Nat → Rx → Option Rx → Option (Except PErr (Rx × Nat))
  | 0, _, _, _, _, _ => none
  | n + 1, text, until_, index, regex, last =>
    match text[index]? with
    | none => some (.ok (addLast regex last, index))
    | some c =>
      if until_ ∧ (c = 124 ∨ c = 41) then some (.ok (addLast regex last, index))
      else if c ∈ commands then
        if c = 91 then
          match parseRange text (index + 1) with
          | .error e => some (.error e)
          | .ok (r, i) => parseLoop n text until_ i (addLast regex last) (some r)
        else if c = 40 then
          match parseOr n text (index + 1) with
          | none => none
          | some (.error e) => some (.error e)
          | some (.ok (r, i)) => parseLoop n text until_ i (addLast regex last) (some r)
        else if c = 46 then parseLoop n text until_ (index + 1) (addLast regex last) (some .dot)
        else if c = 94 then parseLoop n text until_ (index + 1) (addLast regex last) (some .start)
        else if c = 36 then parseLoop n text until_ (index + 1) (addLast regex last) (some .stop)
        else if c = 123 then
          match parseRepeat text (index + 1) with
          | .error e => some (.error e)
          | .ok (x, y, i) => applyRepeat n text until_ i regex last x y
        else if c = 42 then
          if last.isNone then some (.error .syntaxError)
          else applyRepeat n text until_ (index + 1) regex last 0 none
        else if c = 63 then
          if last.isNone then some (.error .syntaxError)
          else applyRepeat n text until_ (index + 1) regex last 0 (some 1)
        else if c = 43 then
          if last.isNone then some (.error .syntaxError)
          else applyRepeat n text until_ (index + 1) regex last 1 none
        else if c = 92 then
          match text[index + 1]? with
          | none => some (.error .syntaxError)
          | some d =>
            if d = 98 then parseLoop n text until_ (index + 2) (addLast regex last) (some .word)
            else if d ∈ commands ∨ d = 32 ∨ d = 39 then
              parseLoop n text until_ (index + 2) (addLast regex last) (some (.str [d]))
            else some (.error .syntaxError)
        else some (.error .notImplemented)
      else parseLoop n text until_ (index + 1) (addLast regex last) (some (.str [c]))
/-- `new_regex = RegexRepeat(last, rmin, rmax)`, parser.py 149-160, and the rest
of the loop. -/
def applyRepeat : Nat → List Nat → Bool → Nat → Rx → Option Rx → Nat → Option Nat →
    Option (Except PErr (Rx × Nat))
  | 0, _, _, _, _, _, _, _ => none
  | n + 1, text, until_, index, regex, last, x, y =>
    match last with
    | none => some (.error .noneRepeat)
    | some l =>
      match repeat_ same budget l x y with
      | none => none
      | some .valueError => some (.error .valueError)
      | some (.ok r) => parseLoop n text until_ index regex (some r)
/-- `parseOr`, parser.py 69-100. -/
def parseOr : Nat → List Nat → Nat → Option (Except PErr (Rx × Nat))
  | 0, _, _ => none
  | n + 1, text, start =>
    let index := if text[start]? = some 63 ∧ text[start + 1]? = some 58 then start + 2 else start
    match text[index]? with
    | none => some (.error .indexError)
    | some c => if c = 63 then some (.error .notImplemented) else orLoop n text index none
/-- The loop of `parseOr`, parser.py 84-95. -/
def orLoop : Nat → List Nat → Nat → Option Rx → Option (Except PErr (Rx × Nat))
  | 0, _, _, _ => none
  | n + 1, text, index, regex =>
    match parseFrom n text index true with
    | none => none
    | some (.error e) => some (.error e)
    | some (.ok (new, i)) =>
      match (match regex with | none => some new | some r => bar same budget r new) with
      | none => none
      | some r =>
        match text[i]? with
        | none => some (.error .syntaxError)
        | some c =>
          if c = 41 then some (.ok (r, i + 1)) else orLoop n text (i + 1) (some r)
/-- `_parse`, parser.py 134-137: the end index is 0 for a start at the end of the
text. -/
def parseFrom : Nat → List Nat → Nat → Bool → Option (Except PErr (Rx × Nat))
  | 0, _, _, _ => none
  | n + 1, text, start, until_ =>
    if text.length = start then some (.ok (.empty, 0))
    else parseLoop n text until_ start .empty none
end

/-- `parse`, parser.py 190-205. -/
def parse (n : Nat) (text : List Nat) : Option (Except PErr Rx) :=
  match parseFrom same budget n text 0 false with
  | none => none
  | some (.error e) => some (.error e)
  | some (.ok (r, index)) =>
    if index = text.length then some (.ok r) else some (.error .assertion)
end

end Hachoir.Regex
