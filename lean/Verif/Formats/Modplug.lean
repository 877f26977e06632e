import Verif.Formats.Pifv

/-!
# What ModPlug adds to music (`parser/audio/modplug.py`)

Left out: names and descriptions; what is in the three sets of a MIDI block, which are told as bytes; blocks that go beyond the end of the file (here an error, there they are cut).
-/

namespace Hachoir.Formats.Modplug
open Hachoir Hachoir.Stream Hachoir.Field Hachoir.Formats

/-- What is told of a block. -/
inductive Block where
  | comment (text : Bytes)
  | settings (values : List Nat) (rest : Bytes)
  | midi (out sfx zxx data rest : Bytes)
  /-- a block whose fields cannot be made, of known size: its bytes -/
  | raw (type content : Bytes)
  | instrument
  | song
  deriving DecidableEq, Repr

/-- `parseComments`, modplug.py:20-23. A text has 1 to 65535 bytes; what is left of a block of known size becomes raw bytes (/repo/hachoir/field/generic_field_set.py:267-296). -/
def comment (n : Nat) : Rd Block :=
  if n = 0 ∨ 65535 < n then Rd.bind Pifv.content fun b => Rd.pure (.raw [84, 69, 88, 84] b)
  else Rd.bind (Rd.text .little .fixed .eightBit (some n)) fun t => Rd.pure (.comment t)

/-- `parseChannelSettings`, modplug.py:69-72; no `data` is behind them, for `current_size` counts the 8 bytes of the head too (line 302). -/
def settings (n : Nat) : Rd Block :=
  Rd.bind (Rd.times (Rd.int 4 .little) (n / 4)) fun vs => Rd.bind Pifv.content fun r => Rd.pure (.settings vs r)

/-- `data` of modplug.py:302-304 behind so many bytes of content: the head of 8 bytes is taken off although it is not in `block_size`. -/
def dataBehind (n used : Nat) : Rd Bytes := if 0 < n - (used + 8) then Rd.raw (n - (used + 8)) else Rd.pure []

/-- `parseMidiConfig`, modplug.py:63-66: sets of 9, 16 and 128 times 32 bytes. Blocks too small for them are told as bytes. -/
def midi (n : Nat) : Rd Block :=
  if n < 4896 then Rd.bind Pifv.content fun b => Rd.pure (.raw [77, 73, 68, 73] b)
  else Rd.bind (Rd.raw (9 * 32)) fun o => Rd.bind (Rd.raw (16 * 32)) fun x => Rd.bind (Rd.raw (128 * 32)) fun z => Rd.bind (dataBehind n 4896) fun d =>
    Rd.bind Pifv.content fun r => Rd.pure (.midi o x z d r)

/-- modplug.py:290-296: the size is that of the content. -/
def sized (r : Nat → Rd Block) : Rd Block := Rd.bind (Rd.int 4 .little) fun n => Rd.within n (r n)

/-- `parseFields`, modplug.py:250-265: four bytes are looked up in a table whose keys are texts, so that no field is ever made; the four bytes must be there unless the file ends: then the error is caught and the block is kept (/repo/hachoir/field/generic_field_set.py:169-176). -/
def extension (b : Block) : Rd Block := fun _ stop addr => if addr = stop ∨ addr + 32 ≤ stop then .ok (b, addr) else .error .readStream

/-- `parsePlugin` is called without its argument (modplug.py:279 and 299), which is a `TypeError`; at the end of the file it is caught and the block is kept (/repo/hachoir/field/generic_field_set.py:169-176). -/
def plugin (type : Bytes) : Rd Block := fun _ stop addr => if addr = stop then .ok (.raw type [], addr) else .error .type

/-- `BLOCK_INFO` and `createFields`, modplug.py:269-304. -/
def body (type : Bytes) : Rd Block :=
  if type = [84, 69, 88, 84] then sized comment
  else if type = [77, 73, 68, 73] then sized midi
  else if type = [88, 70, 72, 67] then sized settings
  else if type = [88, 84, 80, 77] then extension .instrument
  else if type = [83, 84, 80, 77] then extension .song
  else plugin type

/-- `ModplugBlock`, modplug.py:277-304. -/
def block : Rd Block := Rd.bind (Rd.text .little .fixed .eightBit (some 4)) body

/-- How the list ends: with the file, with `info` behind a song block, or with an error, after which the rest of the file is one raw field. -/
inductive Ending where
  | ended
  | info (rest : Bytes)
  | broken (rest : Bytes)
  deriving DecidableEq, Repr

/-- A reader of the rest of the file. -/
def restAs (f : Bytes → List Block × Ending) : Rd (List Block × Ending) := Rd.bind Pifv.content fun r => Rd.pure (f r)

/-- One round of modplug.py:308-317. -/
def step (next : Rd (List Block × Ending)) : Rd (List Block × Ending) := fun s stop addr =>
  match block s stop addr with
  | .error _ => restAs (fun r => ([], .broken r)) s stop addr
  | .ok (b, behind) =>
    if b = .song then restAs (fun r => ([b], .info r)) s stop behind
    else
      match next s stop behind with
      | .error e => .error e
      | .ok (r, behind) => .ok ((b :: r.1, r.2), behind)

/-- `ParseModplugMetadata`, modplug.py:307-317; `n` bounds the number of rounds. An empty `info` is none. -/
def blocks : Nat → Rd (List Block × Ending)
  | 0 => Rd.fail .endless
  | n + 1 => Rd.bind Rd.eof fun e => if e then Rd.pure ([], .ended) else step (blocks n)

end Hachoir.Formats.Modplug
