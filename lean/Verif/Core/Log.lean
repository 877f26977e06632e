/-!
# Messages (`core/log.py`)
-/

namespace Hachoir.Core.Log

/-- `LOG_INFO`, `LOG_WARN` and `LOG_ERROR`, log.py:8-10, or any other number. -/
abbrev Level := Int

/-- What is asked for: of `config` (/repo/hachoir/core/config.py), and of the fields of `Log`, log.py:18-24. -/
structure Settings where
  quiet : Bool
  verbose : Bool
  debug : Bool
  print : Bool
  buffer : Bool
  callback : Bool
  deriving DecidableEq, Repr

/-- The settings at the beginning: config.py and log.py:18-24. -/
def Settings.initial : Settings := ⟨false, false, false, true, false, false⟩

/-- One call of `newMessage`, log.py:62: `who` is what `_logger` of the caller gives, if it gives anything, and `trace` what `getBacktrace(None)` gives. -/
structure Message where
  level : Level
  text : String
  who : Option String
  trace : String
  deriving DecidableEq, Repr

/-- `log`, and what it wrote: the lines on `stderr`, the calls of `on_new_message`, the lines of every file by name, without the dates. -/
structure State where
  settings : Settings
  buffer : List (Level × List String)
  file : Option String
  screen : List String
  calls : List (Level × String × String)
  disk : List (String × List String)
  deriving DecidableEq, Repr

/-- log.py:18-24. -/
def State.initial (disk : List (String × List String)) : State := ⟨.initial, [], none, [], [], disk⟩

/-- `level_name.get(level, "[info]")`, log.py:12-16 and 98. -/
def levelName (l : Level) : String := if l = 1 then "[warn]" else if l = 2 then "[err!]" else "[info]"

/-- The messages that are dropped, log.py:75-77. -/
def dropped (c : Settings) (l : Level) : Bool := (decide (l < 2) && c.quiet) || (decide (l ≤ 0) && !c.verbose)

/-- log.py:78-84. -/
def traced (c : Settings) (m : Message) : String := if c.debug && m.trace != "" then m.text ++ ("\n\n" ++ m.trace) else m.text

/-- log.py:85-88. -/
def signed (who : Option String) (t : String) : String :=
  match who with
  | none => t
  | some w => "[" ++ (w ++ ("] " ++ t))

/-- log.py:91-95. -/
def store (l : Level) (t : String) : List (Level × List String) → List (Level × List String)
  | [] => [(l, [t])]
  | (k, ts) :: r => if k = l then (k, ts ++ [t]) :: r else (k, ts) :: store l t r

/-- Writing a line at the end of a file. -/
def append (name line : String) : List (String × List String) → List (String × List String)
  | [] => [(name, [line])]
  | (n, ls) :: r => if n = name then (n, ls ++ [line]) :: r else (n, ls) :: append name line r

/-- `_writeIntoFile`, log.py:57-60, if there is a file. -/
def writeFile (line : String) (s : State) : State :=
  match s.file with
  | none => s
  | some f => { s with disk := append f line s.disk }

/-- `newMessage`, log.py:62-112. -/
def newMessage (m : Message) (s : State) : State :=
  if dropped s.settings m.level then s
  else
    let raw := traced s.settings m
    let text := signed m.who raw
    let name := levelName m.level
    let s := if s.settings.buffer then { s with buffer := store m.level text s.buffer } else s
    let s := if s.settings.print then { s with screen := s.screen ++ [name ++ (" " ++ text)] } else s
    let s := writeFile (name ++ (" " ++ text)) s
    if s.settings.callback then { s with calls := s.calls ++ [(m.level, name, raw)] } else s

/-- `setFilename`, log.py:30-55, of a name without links, in a directory that exists or not (`trace`: the backtrace of the error); the argument `append` is overwritten (log.py:42).  Other errors than a directory that does not exist are left out. -/
def setFilename (name : String) (_append directory : Bool) (trace : String) (s : State) : State :=
  if directory then writeFile "Starting Hachoir" { s with file := some name }
  else newMessage ⟨0, "[Log] setFilename(" ++ (name ++ ") fails: no such file"), none, trace⟩ { s with file := none }

/-- `shutdown`, log.py:26-28. -/
def shutdown (s : State) : State := writeFile "Stop Hachoir" s

/-- What a program does. -/
inductive Op where
  | message (m : Message)
  | set (c : Settings)
  | file (name : String) (append directory : Bool) (trace : String)
  | stop

def step : Op → State → State
  | .message m, s => newMessage m s
  | .set c, s => { s with settings := c }
  | .file n a d t, s => setFilename n a d t s
  | .stop, s => shutdown s

def run (ops : List Op) (s : State) : State := ops.foldl (fun s o => step o s) s

/-- `self.__buffer.get(level, [])`. -/
def buffered (l : Level) (s : State) : List String := (s.buffer.lookup l).getD []

/-- The lines of a file. -/
def lines (n : String) (s : State) : List String := (s.disk.lookup n).getD []

end Hachoir.Core.Log
