import Verif.Core.Timestamp

/-!
# Allocation tables and dates of FAT file systems

Model of `FAT`, `Date` and `FAT_FS.clusters` of /repo/hachoir/parser/file_system/fat.py.  Addresses
and sizes are in bits.
-/

namespace Hachoir.Formats.Fat
open Hachoir Hachoir.Stream Hachoir.Time

/-- What the text of an entry says. -/
inductive EntryKind
  | reservedCluster
  | free
  | chainEnd
  | bad
  | reservedValue
  | number (i : Nat)
  deriving DecidableEq, Repr

/-- `FatEntry`, /repo/hachoir/parser/file_system/fat.py:69-85. -/
def entryKind (version i : Nat) : EntryKind :=
  let maxEntry : Int := 1 <<< min 28 version
  let j := (1 - (i : Int)) % maxEntry
  if j = 0 then .reservedCluster
  else if j = 1 then .free
  else if j < 10 then .chainEnd
  else if j = 10 then .bad
  else if j < 18 then .reservedValue
  else .number i

/-- `FAT.createFields`, /repo/hachoir/parser/file_system/fat.py:87-88, up to `stop`.  An entry that does
not fit is left out (the code makes a raw field of the rest).  `fuel` bounds the number of entries. -/
def readEntries (s : InputStream) (version : Nat) : Nat → Nat → Nat → Except PyErr (List Nat)
  | 0, _, _ => .error .endless
  | fuel + 1, addr, stop =>
    if addr + version ≤ stop then
      match readBits s addr version .little with
      | .error e => .error e
      | .ok v =>
        match readEntries s version fuel (addr + version) stop with
        | .error e => .error e
        | .ok l => .ok (v :: l)
    else .ok []

/-- `self.fat[key][…]` in `clusters`, /repo/hachoir/parser/file_system/fat.py:350, for `next / 1000`: a
float, which `GenericFieldSet.getField` hands on to `Field.getField`
(/repo/hachoir/field/generic_field_set.py:224-233); that takes `key[0]` of a key that is not zero
(/repo/hachoir/field/field.py:240-257), a TypeError, and raises KeyError for zero. -/
def fatLookUp (next : Nat) : Except PyErr Nat := if next = 0 then .error .key else .error .type

/-- `FAT_FS.clusters`, /repo/hachoir/parser/file_system/fat.py:343-359: the loop from the start `cluster`
with `number` clusters behind each other, `next` being the last.  Address, size and whether it is
the last part. -/
def clusterLoop (maxEntry dataStart clusterSize : Nat) : Nat → Nat → Nat → Nat → Except PyErr (List (Nat × Nat × Bool))
  | 0, _, _, _ => .error .endless
  | fuel + 1, cluster, number, next =>
    match fatLookUp next with
    | .error e => .error e
    | .ok next =>
      if ¬ (1 < next ∧ next < maxEntry) then .ok [(dataStart + cluster * clusterSize, number * clusterSize, true)]
      else if cluster + number = next then clusterLoop maxEntry dataStart clusterSize fuel cluster (number + 1) next
      else
        match clusterLoop maxEntry dataStart clusterSize fuel next 1 next with
        | .error e => .error e
        | .ok l => .ok ((dataStart + cluster * clusterSize, number * clusterSize, false) :: l)

def clusters (version dataStart clusterSize fuel cluster : Nat) : Except PyErr (List (Nat × Nat × Bool)) :=
  let maxEntry := (1 <<< min 28 version) - 16
  if 1 < cluster ∧ cluster < maxEntry then clusterLoop maxEntry dataStart clusterSize fuel cluster 1 cluster
  else .ok []

/-- The description of a date. -/
inductive Descr
  | none
  | invalid
  | date (year month day : Nat)
  | time (year month day hour minute second micro : Nat)
  deriving DecidableEq, Repr

/-- `datetime.date(…)` for years from 1980 to 2107. -/
def validDay (year month day : Nat) : Bool :=
  1 ≤ month && month ≤ 12 && 1 ≤ day && day ≤ daysInMonth year month

/-- `Date`, /repo/hachoir/parser/file_system/fat.py:91-132: the fields of five (create), two (access)
or four bytes (modify) and the description. -/
def readDate (s : InputStream) (addr bytes : Nat) : Except PyErr Descr := do
  let cs ← if 4 < bytes then readBits s addr 8 .little else pure 0
  let timeAddr := if 4 < bytes then addr + 8 else addr
  let (sec2, minute, hour) ←
    if 2 < bytes then do
      let sec2 ← readBits s timeAddr 5 .little
      let minute ← readBits s ((timeAddr + 5 : Nat) : Int) 6 .little
      let hour ← readBits s ((timeAddr + 11 : Nat) : Int) 5 .little
      pure (sec2, minute, hour)
    else pure (0, 0, 0)
  let dayAddr := if 2 < bytes then timeAddr + 16 else timeAddr
  let day ← readBits s dayAddr 5 .little
  let month ← readBits s ((dayAddr + 5 : Nat) : Int) 4 .little
  let year ← readBits s ((dayAddr + 9 : Nat) : Int) 7 .little
  let cs := 200 * sec2 + cs
  if year = 0 ∧ month = 0 ∧ day = 0 ∧ hour = 0 ∧ minute = 0 ∧ cs = 0 then pure .none
  else if 2 < bytes then
    if validDay (year + 1980) month day && hour < 24 && minute < 60 && cs / 100 < 60 then
      pure (.time (year + 1980) month day hour minute (cs / 100) (cs % 100 * 10000))
    else pure .invalid
  else if validDay (year + 1980) month day then pure (.date (year + 1980) month day)
  else pure .invalid

end Hachoir.Formats.Fat
