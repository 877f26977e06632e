/-!
Model of `makePrintable` and `makeUnicode`, hachoir/core/tools.py 250-354.

A text is a list of code points.  The step through encoded bytes
(`data.encode(charset, "backslashreplace")`, substitution, `str(data, charset)`)
is modelled on code points: the substitution only looks for ASCII characters,
which are encoded as themselves in the three charsets, and no other character
has an ASCII byte in its encoding.
-/

namespace Hachoir.Printable

/-- The charsets considered: ASCII, ISO-8859-1, UTF-8. -/
inductive Charset where
  | ascii
  | latin1
  | utf8
deriving Repr, DecidableEq

/-- Characters that the charset can encode (UTF-8: no surrogates). -/
def Charset.has : Charset → Nat → Bool
  | .ascii, c => c < 128
  | .latin1, c => c < 256
  | .utf8, c => !(0xD800 ≤ c && c ≤ 0xDFFF)

/-- A lower case hexadecimal digit. -/
def hexDigit (n : Nat) : Nat := if n < 10 then 48 + n else 87 + n

/-- `controlchars`, tools.py 251-261. -/
def controlChar (c : Nat) : List Nat :=
  if c = 10 then [92, 110]
  else if c = 13 then [92, 114]
  else if c = 9 then [92, 116]
  else if c = 7 then [92, 97]
  else if c = 8 then [92, 98]
  else [92, 120, hexDigit (c / 16), hexDigit (c % 16)]

/-- The characters of `regex_control_code`, tools.py 250. -/
def isControl (c : Nat) : Bool := c < 32 || c == 127

/-- `regex_control_code.sub(...)`, tools.py 313-314. -/
def escapeControls (data : List Nat) : List Nat :=
  data.flatMap fun c => if isControl c then controlChar c else [c]

/-- The `backslashreplace` error handler for one character. -/
def backslash (c : Nat) : List Nat :=
  if c < 0x100 then [92, 120, hexDigit (c / 16), hexDigit (c % 16)]
  else if c < 0x10000 then
    [92, 117, hexDigit (c / 0x1000), hexDigit (c / 0x100 % 16), hexDigit (c / 16 % 16),
      hexDigit (c % 16)]
  else
    [92, 85, hexDigit (c / 0x10000000), hexDigit (c / 0x1000000 % 16),
      hexDigit (c / 0x100000 % 16), hexDigit (c / 0x10000 % 16), hexDigit (c / 0x1000 % 16),
      hexDigit (c / 0x100 % 16), hexDigit (c / 16 % 16), hexDigit (c % 16)]

/-- `data.encode(charset, "backslashreplace")` read back with the charset. -/
def encode (cs : Charset) (data : List Nat) : List Nat :=
  data.flatMap fun c => if cs.has c then [c] else backslash c

/-- An octal digit. -/
def isOct (c : Nat) : Bool := 48 ≤ c && c ≤ 55

/-- The next character is not an octal digit, or there is none. -/
def noOct : List Nat → Bool
  | [] => true
  | c :: _ => !isOct c

/-- Does `\\x0([0-7])(?=[^0-7]|$)` match here? -/
def octHere : List Nat → Bool
  | 92 :: 120 :: 48 :: d :: r => isOct d && noOct r
  | _ => false

/-- `re.sub(br"\\x0([0-7])(?=[^0-7]|$)", br"\\\1", data)`, tools.py 326.  The first
argument counts the characters `x0` of a match still to be left out. -/
def smartFrom : Nat → List Nat → List Nat
  | _, [] => []
  | k + 1, _ :: t => smartFrom k t
  | 0, c :: t => c :: smartFrom (if octHere (c :: t) then 2 else 0) t

def smart (t : List Nat) : List Nat := smartFrom 0 t

/-- `data.replace(quote, '\\' + quote)` for a quote of one character. -/
def escapeQuote (q : Nat) (data : List Nat) : List Nat :=
  data.flatMap fun c => if c = q then [92, q] else [c]

/-- The text of `"(empty)"`. -/
def emptyText : List Nat := [40, 101, 109, 112, 116, 121, 41]

/-- The data to print: a text (`str`) or bytes. -/
inductive Data where
  | text (t : List Nat)
  | bytes (b : List Nat)
deriving Repr

/-- `makePrintable`, tools.py 264-327.  `quote` is `None` or one character. -/
def makePrintable (data : Data) (cs : Charset) (quote : Option Nat) (smart_ : Bool) : List Nat :=
  let (t, cs) := match data with
    | .text t => (t, cs)
    | .bytes b => (b, if b = [] then cs else .ascii)
  let t :=
    if t ≠ [] then
      let t := escapeControls t
      match quote with
      | none => t
      | some q =>
        let t := if q = 34 ∨ q = 39 then escapeQuote q t else t
        q :: t ++ [q]
    else
      match quote with
      | none => []
      | some _ => emptyText
  let t := encode cs t
  if smart_ then smart t else t

/-- `makeUnicode` for a text or bytes, tools.py 330-354. -/
def makeUnicode (data : Data) : List Nat :=
  match data with
  | .text t => smart (escapeControls t)
  | .bytes b => smart (escapeControls b)

end Hachoir.Printable
