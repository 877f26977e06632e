import Verif.Formats.Asf

/-!
# Jobs of the Windows task scheduler (`parser/misc/mstask.py`)

Left out: names of values.  A trigger that is smaller than its fields is not modelled.
-/

namespace Hachoir.Formats.MsTask
open Hachoir Hachoir.Stream Hachoir.Field Hachoir.Formats

/-- The field `text` of a `PascalStringWin16` (/repo/hachoir/parser/common/win32.py:38-42). -/
def winText (n : Nat) : Rd Bytes :=
  if n = 0 then pure [] else Rd.text .little .fixed .utf16le (some ((2 * n : Nat) : Int))

/-- `PascalStringWin16`, /repo/hachoir/parser/common/win32.py:29-48: the size in units of two bytes. -/
def winString : Rd Bytes := do
  let n ← Rd.int 2 .little
  Rd.within (2 * n) (winText n)

/-- `TaskTrigger`, mstask.py:21-60. -/
structure Trigger where
  size : Nat
  /-- `Reserved[0]`, `BeginYear` … `MinutesInterval` -/
  head : List Nat
  flags : List Nat
  /-- `TriggerType` … `Reserved[2]` -/
  tail : List Nat
  deriving DecidableEq, Repr

/-- mstask.py:37-60 -/
def triggerRest (size : Nat) : Rd Trigger := do
  let a ← Asf.numbers [2, 2, 2, 2, 2, 2, 2, 2, 2, 4, 4]
  let f ← Rd.bits .little [1, 1, 1, 29]
  let b ← Asf.numbers [4, 2, 2, 2, 2, 2, 2]
  pure ⟨size, a, f, b⟩

/-- mstask.py:33-35: the size of a trigger is its first field. -/
def trigger : Rd Trigger := do
  let n ← Rd.int 2 .little
  Rd.within (n - 2) (triggerRest n)

/-- The reserved data. -/
inductive Reserved where
  | nothing
  | start (error flags : Nat)
  | raw (b : Bytes)
  deriving DecidableEq, Repr

def startData : Rd Reserved := do
  let e ← Rd.int 4 .little
  let f ← Rd.int 4 .little
  pure (.start e f)

def otherData (n : Nat) : Rd Reserved := do
  let b ← Rd.raw n
  pure (.raw b)

/-- mstask.py:160-164 -/
def reserved (n : Nat) : Rd Reserved :=
  if n = 8 then startData else if n = 0 then pure .nothing else otherData n

structure Job where
  windows : Nat
  version : Nat
  uuid : Bytes
  /-- `AppNameOffset` … `IdleWait`, `Priority` … `Status` -/
  head : List Nat
  /-- `Interactive` … `Unused[1]` -/
  flags : List Nat
  more : Bytes
  /-- `LastRunYear` … `LastRunMillisecond`, `RunningInstanceCount` -/
  run : List Nat
  app : Bytes
  parameters : Bytes
  directory : Bytes
  author : Bytes
  comment : Bytes
  userSize : Nat
  reservedSize : Nat
  reserved : Reserved
  triggers : List Trigger
  deriving DecidableEq, Repr

/-- `MSTaskFile.createFields`, mstask.py:111-167. -/
def job : Rd Job := do
  let w ← Rd.int 2 .little
  let v ← Rd.int 2 .little
  let g ← Asf.guid
  let h ← Asf.numbers [2, 2, 2, 2, 2, 2, 4, 4, 4, 4]
  let f ← Rd.bits .little [1, 1, 1, 1, 1, 1, 1, 1, 1, 1, 1, 1, 1, 1, 1, 1]
  let m ← Rd.raw 2
  let r ← Asf.numbers [2, 2, 2, 2, 2, 2, 2, 2, 2]
  let a ← winString
  let p ← winString
  let d ← winString
  let u ← winString
  let c ← winString
  let us ← Rd.int 2 .little
  let rs ← Rd.int 2 .little
  let res ← reserved rs
  let n ← Rd.int 2 .little
  let ts ← Rd.times trigger n
  pure ⟨w, v, g, h, f, m, r, a, p, d, u, c, us, rs, res, ts⟩

/-- `validate`, mstask.py:104-109, with `PRODUCT_VERSION`, lines 77-83. -/
def valid (j : Job) : Bool := [0x0400, 0x0500, 0x0501, 0x0600, 0x0601].contains j.windows

/-- The flag at this place: `Interactive`, `DeleteWhenDone`, `Disabled`, `StartOnlyIfIdle`, `KillOnIdleEnd`, `DontStartIfOnBatteries`, `KillIfGoingOnBatteries`,
`RunOnlyIfDocked`, `HiddenTask`, `RunIfConnectedToInternet`, `RestartOnIdleResume`, `SystemRequired`, `OnlyIfUserLoggedOn`, `ApplicationNameExists`, mstask.py:125-138. -/
def flag (j : Job) (i : Nat) : Bool := j.flags.getD i 0 = 1

end Hachoir.Formats.MsTask
