import Verif.Stream.Input
import Verif.Spec.Decimal

/-!
# Padding fields

/repo/hachoir/field/padding.py.
-/

set_option linter.unusedVariables false

namespace Hachoir.Field
open Hachoir Hachoir.Stream

/-- The loop of `PaddingBytes.checkPattern`, padding.py:89-98, from one index on.  With an empty
pattern the index never moves. -/
def patternLoop (pattern content : Bytes) : Except PyErr Bool :=
  if h : content = [] then .ok true
  else if content.take pattern.length ≠ pattern then .ok false
  else if hp : pattern = [] then .error .endless
  else patternLoop pattern (content.drop pattern.length)
termination_by content.length
decreasing_by
  have h1 : 0 < content.length := List.length_pos_iff.mpr h
  have h2 : 0 < pattern.length := List.length_pos_iff.mpr hp
  rw [List.length_drop]
  omega

/-- `PaddingBytes.checkPattern`, padding.py:73-99, of a field of `nbytes` bytes; `config` is
`config.check_padding_pattern`, and `_display_pattern` is the result.  When `self.value` cannot be
read it is `None` (field.py), and `len(None)` is a `TypeError`. -/
def checkBytes (config : Bool) (s : InputStream) (addr : Int) (nbytes : Nat) (pattern : Option Bytes) :
    Except PyErr Bool :=
  if config = false then .ok false
  else
    match pattern with
    | none => .ok false
    | some p =>
      if 4096 < nbytes then
        match readBytes s addr 4096 with
        | .error e => .error e
        | .ok content => patternLoop p content
      else
        match readBytes s addr nbytes with
        | .error e => .error .type
        | .ok content => patternLoop p content

/-- `PaddingBits.checkPattern`, padding.py:25-43.  When `self.value` cannot be read it is `None`,
which is not 0. -/
def checkBits (config : Bool) (s : InputStream) (addr : Int) (nbits : Nat) (endian : Endian)
    (pattern : Option Int) : Except PyErr Bool :=
  if config = false then .ok false
  else if pattern ≠ some 0 then .ok false
  else if 128 < nbits then
    match readBits s addr 128 endian with
    | .error e => .error e
    | .ok value => .ok (value == 0)
  else
    match readBits s addr nbits endian with
    | .error e => .ok false
    | .ok value => .ok (value == 0)

/-- `NullBytes.__init__` and `NullBits.__init__`, padding.py:118-119, 142-144: the pattern is zero.
The display is `<null>` when the check succeeds, and that of the content otherwise (121-125,
146-150). -/
def nullBytes (config : Bool) (s : InputStream) (addr : Int) (nbytes : Nat) : Except PyErr Bool :=
  checkBytes config s addr nbytes (some [0])
def nullBits (config : Bool) (s : InputStream) (addr : Int) (nbits : Nat) (endian : Endian) : Except PyErr Bool :=
  checkBits config s addr nbits endian (some 0)

end Hachoir.Field
