import Verif.Formats.Asf
import Verif.Formats.Iptc

/-!
# Firmware volumes (`parser/misc/pifv.py`)
-/

namespace Hachoir.Formats.Pifv
open Hachoir Hachoir.Stream Hachoir.Field Hachoir.Formats

/-- `File`, pifv.py:165-172, without its size and sections. -/
structure FileHead where
  name : Bytes
  check : Nat
  type : Nat
  attributes : Nat
  state : Nat

/-- `FirmwareVolume`, pifv.py:192-208, without its size and files; the last block map, which is empty, is not kept. -/
structure VolumeHead where
  guid : Bytes
  signature : Bytes
  numbers : List Nat
  blocks : List (List Nat)

/-- `FileSection`, pifv.py:113-152. -/
inductive Section
  | plain (type : Nat) (data : Bytes)
  | compressed (length : Nat) (data : Bytes)
  | unpacked (length method : Nat) (parts : List Section)
  | subtype (guid data : Bytes)
  | defined (guid : Bytes) (offset attributes : Nat) (data : Bytes)
  | interface (name data : Bytes)
  | version (build : Nat) (name data : Bytes)
  | image (head : VolumeHead) (files : List (FileHead × List Section))

abbrev FileTold := FileHead × List Section
abbrev Volume := VolumeHead × List FileTold

/-- The rest of the section, pifv.py:135-137 and 150. -/
def content : Rd Bytes := Rd.bind Iptc.left fun n => if n = 0 then Rd.pure [] else Rd.raw n

/-- `CString` in UTF-16. -/
def name : Rd Bytes := Rd.text .little .c .utf16le none

/-- Compression, pifv.py:119-121 and 139-146. -/
def packed (sections : Rd (List Section)) : Rd Section :=
  Rd.bind (Rd.int 4 .little) fun len => Rd.bind (Rd.int 1 .little) fun m =>
    if m = 1 then Rd.bind content fun d => Rd.pure (.compressed len d)
    else Rd.bind sections fun l => Rd.pure (.unpacked len m l)

def subtypeBody : Rd Section := Rd.bind Asf.guid fun g => Rd.bind content fun d => Rd.pure (.subtype g d)

def definedBody : Rd Section :=
  Rd.bind Asf.guid fun g => Rd.bind (Rd.int 2 .little) fun o => Rd.bind (Rd.int 2 .little) fun a => Rd.bind content fun d => Rd.pure (.defined g o a d)

def interfaceBody : Rd Section := Rd.bind name fun t => Rd.bind content fun d => Rd.pure (.interface t d)

def versionBody : Rd Section := Rd.bind (Rd.int 2 .little) fun b => Rd.bind name fun t => Rd.bind content fun d => Rd.pure (.version b t d)

def imageBody (volume : Rd Volume) : Rd Section :=
  Rd.bind Iptc.left fun n => if n = 0 then Rd.pure (.plain 0x17 []) else Rd.bind volume fun v => Rd.pure (.image v.1 v.2)

/-- `FileSection.createFields` behind size and type, pifv.py:119-152. -/
def sectionBody (sections : Rd (List Section)) (volume : Rd Volume) (type : Nat) : Rd Section :=
  if type = 1 then packed sections
  else if type = 0x18 then subtypeBody
  else if type = 2 then definedBody
  else if type = 0x15 then interfaceBody
  else if type = 0x14 then versionBody
  else if type = 0x17 then imageBody volume
  else Rd.bind content fun d => Rd.pure (.plain type d)

/-- What is added to the size of a dependency section, pifv.py:105-111: two bytes if the byte behind it is zero.  `n` is the number of bytes of the section that follow the address. -/
def extra (type n : Nat) : Rd Nat := fun s _ addr =>
  if type = 0x13 ∨ type = 0x1b then
    match readBytes s ((addr + 8 * n : Nat)) 1 with
    | .error e => .error e
    | .ok b => .ok (if b = [0] then 2 else 0, addr)
  else .ok (0, addr)

/-- `FileSection`, pifv.py:101-117.  Sizes below 4, less than size and type take, are taken as an error. -/
def sectionOf (sections : Rd (List Section)) (volume : Rd Volume) : Rd Section :=
  Rd.bind (Rd.int 3 .little) fun n => Rd.bind (Rd.int 1 .little) fun t =>
    if n < 4 then Rd.fail .parser
    else Rd.bind (extra t (n - 4)) fun x => Rd.within (n - 4 + x) (sectionBody sections volume t)

/-- `File`, pifv.py:161-176, with its size.  Sizes below 24 are taken as an error. -/
def fileOf (sections : Rd (List Section)) : Rd (FileTold × Nat) :=
  Rd.bind Asf.guid fun g => Rd.bind (Rd.int 2 .little) fun c => Rd.bind (Rd.int 1 .little) fun t => Rd.bind (Rd.int 1 .little) fun a =>
    Rd.bind (Rd.int 3 .little) fun n => Rd.bind (Rd.int 1 .little) fun st =>
      if n < 24 then Rd.fail .parser
      else Rd.bind (Rd.within (n - 24) sections) fun l => Rd.pure ((⟨g, c, t, a, st⟩, l), n)

/-- `paddingSize(cur, 8)`, /repo/hachoir/core/tools.py:41-57. -/
def padding (cur : Nat) : Nat := if cur % 8 ≠ 0 then 8 - cur % 8 else 0

/-- `PaddingBytes`, if there are any. -/
def skip (n : Nat) : Rd Bytes := if n = 0 then Rd.pure [] else Rd.raw n

/-- The files of a volume, pifv.py:212-216; `cur` is the size of what was read of the volume, the first number bounds the rounds. -/
def files (sections : Rd (List Section)) : Nat → Nat → Rd (List FileTold)
  | 0, _ => Rd.fail .endless
  | n + 1, cur => Rd.bind Rd.eof fun e => if e then Rd.pure []
    else Rd.bind (skip (padding cur)) fun _ => Rd.bind (fileOf sections) fun f => Rd.bind (files sections n (cur + padding cur + f.2)) fun fs => Rd.pure (f.1 :: fs)

/-- The block maps, pifv.py:204-208. -/
def blockMaps : Nat → Rd (List (List Nat))
  | 0 => Rd.fail .endless
  | n + 1 => Rd.bind (Asf.numbers [4, 4]) fun b => if b = [0, 0] then Rd.pure [] else Rd.bind (blockMaps n) fun bs => Rd.pure (b :: bs)

/-- `FirmwareVolume`, pifv.py:187-216: its size is that told.  A size that has no room for the header is taken as an error. -/
def volumeOf (sections : Rd (List Section)) (fuel : Nat) : Rd Volume :=
  Rd.bind (Rd.raw 16) fun _ => Rd.bind Asf.guid fun g => Rd.bind (Rd.int 8 .little) fun len => Rd.bind (Rd.raw 4) fun sig =>
    Rd.bind (Asf.numbers [4, 2, 2, 2, 1, 1]) fun ns => Rd.bind (blockMaps fuel) fun bs =>
      if len < 64 + 8 * bs.length then Rd.fail .parser
      else Rd.bind (Rd.within (len - (64 + 8 * bs.length)) (files sections fuel (64 + 8 * bs.length))) fun fs => Rd.pure (⟨g, sig, ns, bs⟩, fs)

/-- Sections inside of sections, as deep as the second number says. -/
def sect (fuel : Nat) : Nat → Rd Section
  | 0 => Rd.fail .endless
  | n + 1 => sectionOf (Rd.whileNotEof (sect fuel n) fuel) (volumeOf (Rd.whileNotEof (sect fuel n) fuel) fuel)

/-- `createFields` of the file, pifv.py:241-243. -/
def file (fuel depth : Nat) : Rd (List Volume) := Rd.whileNotEof (volumeOf (Rd.whileNotEof (sect fuel depth) fuel) fuel) fuel

/-- `validate`, pifv.py:234-239. -/
def valid (data : Bytes) : Bool := (data.drop 40).take 4 == "_FVH".toUTF8.toList && data.take 16 == List.replicate 16 0

end Hachoir.Formats.Pifv
