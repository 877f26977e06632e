import Verif.Stream.Input

/-!
# Atoms of MP4 and QuickTime files

Model of `Atom` and `AtomList` of /repo/hachoir/parser/container/mp4.py.  Addresses and sizes are
in bits, addresses absolute.
-/

namespace Hachoir.Formats.Mp4
open Hachoir Hachoir.Stream

/-- The bytes of an ASCII text. -/
def latin (t : String) : Bytes := t.toList.map fun c => UInt8.ofNat c.toNat

/-- The tags whose handler is `AtomList`, /repo/hachoir/parser/container/mp4.py:1114-1244. -/
def listTags : List Bytes :=
  ["moov", "trak", "tref", "edts", "mdia", "minf", "dinf", "stbl", "moof", "traf", "mfra", "udta", "trkn", "disk", "tmpo",
    "cpil", "gnre", "covr", "----", "tags", "tseg"].map latin ++
  ["cpy", "day", "dir", "ed1", "ed2", "ed3", "ed4", "ed5", "ed6", "ed7", "ed8", "ed9", "fmt", "inf", "prd", "prf", "req",
    "src", "nam", "des", "cmt", "alb", "gen", "ART", "too", "wrt"].map fun t => 0xa9 :: latin t

/-- The other tags with a handler, /repo/hachoir/parser/container/mp4.py:1111-1244. -/
def otherTags : List Bytes :=
  ["ftyp", "mvhd", "tkhd", "hint", "cdsc", "elst", "load", "senc", "mdhd", "hdlr", "vmhd", "smhd", "hmhd", "dref", "url ",
    "urn ", "stsd", "esds", "avcC", "btrt", "dec3", "sinf", "frma", "schm", "schi", "tenc", "stts", "ctts", "stsc", "stsz",
    "stz2", "stco", "co64", "stss", "pssh", "mfhd", "tfhd", "trun", "tfra", "mfro", "sidx", "meta", "keys", "ilst",
    "chpl"].map latin

/-- What the content of an atom is: nothing, raw bytes, a field set of a handler, atoms. -/
inductive Content
  | nothing
  | raw
  | handled
  | atoms
  deriving DecidableEq, Repr

/-- The handler for a tag, /repo/hachoir/parser/container/mp4.py:1272-1278.  The text of a GUID is
never a tag of the table.  The tag is read with the charset ASCII; bytes from 128 on are then taken
as ISO-8859-1 (property C70), so that the bytes can be compared. -/
def contentOf (tag : Bytes) (uuid : Bool) : Content :=
  if uuid then .raw
  else if tag ∈ listTags then .atoms
  else if tag ∈ otherTags then .handled
  else .raw

/-- An atom: how many atoms are around it, tag, address, size of the fields in front of the
content, size of the content. -/
structure Atom where
  depth : Nat
  tag : Bytes
  addr : Nat
  head : Nat
  size : Nat
  content : Content
  deriving DecidableEq, Repr

/-- The fields in front of the content, /repo/hachoir/parser/container/mp4.py:1249-1271, of an
atom in a field set that ends at `stop`: tag, their size in bits, bytes of content.  A field that
does not fit is an error. -/
def readHead (s : InputStream) (addr stop : Nat) : Except PyErr (Bytes × Nat × Int) :=
  if stop < addr + 64 then .error .parser
  else
    match readBits s addr 32 .big with
    | .error e => .error e
    | .ok size =>
      match readBytes s (addr + 32) 4 with
      | .error e => .error e
      | .ok tag =>
        if size = 1 then
          if stop < addr + 128 then .error .parser
          else
            match readBits s (addr + 64) 64 .big with
            | .error e => .error e
            | .ok size64 => .ok (tag, 128, (size64 : Int) - 16)
        else if size = 0 then .ok (tag, 64, ((stop : Int) - addr) / 8 - 8)
        else .ok (tag, 64, (size : Int) - 8)

/-- With the GUID of a `uuid` atom, /repo/hachoir/parser/container/mp4.py:1265-1268. -/
def readHeader (s : InputStream) (addr stop : Nat) : Except PyErr (Bytes × Bool × Nat × Int) :=
  match readHead s addr stop with
  | .error e => .error e
  | .ok (tag, head, size) =>
    if tag = latin "uuid" then
      if stop < addr + head + 128 then .error .parser else .ok (tag, true, head + 128, size - 16)
    else .ok (tag, false, head, size)

/-- `AtomList.createFields` and `MP4File.createFields` with `Atom.createFields`,
/repo/hachoir/parser/container/mp4.py:160-162, 1249-1278 and 1319-1321: all atoms from `addr` up
to `stop`, with the atoms in them behind their atom.  `fuel` bounds the number of atoms. -/
def readAtoms (s : InputStream) : Nat → Nat → Nat → Nat → Except PyErr (List Atom)
  | 0, _, _, _ => .error .endless
  | fuel + 1, depth, addr, stop =>
    if addr < stop then
      match readHeader s addr stop with
      | .error e => .error e
      | .ok (tag, uuid, head, size) =>
        if 0 < size then
          if stop < addr + head + size.toNat * 8 then .error .parser
          else
            match
              if contentOf tag uuid = .atoms then
                readAtoms s fuel (depth + 1) (addr + head) (addr + head + size.toNat * 8)
              else .ok [] with
            | .error e => .error e
            | .ok inner =>
              match readAtoms s fuel depth (addr + head + size.toNat * 8) stop with
              | .error e => .error e
              | .ok rest => .ok (⟨depth, tag, addr, head, size.toNat * 8, contentOf tag uuid⟩ :: (inner ++ rest))
        else
          match readAtoms s fuel depth (addr + head) stop with
          | .error e => .error e
          | .ok rest => .ok (⟨depth, tag, addr, head, 0, .nothing⟩ :: rest)
    else .ok []

end Hachoir.Formats.Mp4
