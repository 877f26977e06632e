import Verif.Core.Log

/-!
# C180: messages
-/

namespace Hachoir.Props
open Hachoir.Core.Log

/-! ### Specification -/

/-- Errors are always wanted, warnings unless it is to be quiet, others only if it is also to be verbose. -/
def LogWanted (c : Settings) (l : Level) : Prop := 2 ≤ l ∨ (c.quiet = false ∧ (0 < l ∨ c.verbose = true))

instance (c : Settings) (l : Level) : Decidable (LogWanted c l) := by unfold LogWanted; infer_instance

/-- What happens, with the settings and the file in force: a message, or a line for the file only. -/
inductive Entry where
  | said (c : Settings) (file : Option String) (m : Message)
  | mark (file : Option String) (line : String)

def noSuchFile (n t : String) : Message := ⟨0, "[Log] setFilename(" ++ (n ++ ") fails: no such file"), none, t⟩

/-- What happens in a program. -/
def logHistory : Settings → Option String → List Op → List Entry
  | _, _, [] => []
  | c, f, .message m :: ops => .said c f m :: logHistory c f ops
  | _, f, .set c :: ops => logHistory c f ops
  | c, _, .file n _ true _ :: ops => .mark (some n) "Starting Hachoir" :: logHistory c (some n) ops
  | c, _, .file n _ false t :: ops => .said c none (noSuchFile n t) :: logHistory c none ops
  | c, f, .stop :: ops => .mark f "Stop Hachoir" :: logHistory c f ops

/-- The text with the backtrace, if it is to be shown. -/
def logText (c : Settings) (m : Message) : String := if c.debug = true ∧ m.trace ≠ "" then m.text ++ ("\n\n" ++ m.trace) else m.text

/-- The text with the one who says it. -/
def fullText (c : Settings) (m : Message) : String := match m.who with
  | none => logText c m
  | some w => "[" ++ (w ++ ("] " ++ logText c m))

def logLine (c : Settings) (m : Message) : String := levelName m.level ++ (" " ++ fullText c m)

def onScreen : Entry → List String
  | .said c _ m => if LogWanted c m.level ∧ c.print = true then [logLine c m] else []
  | .mark _ _ => []

def inBuffer (l : Level) : Entry → List String
  | .said c _ m => if LogWanted c m.level ∧ c.buffer = true ∧ m.level = l then [fullText c m] else []
  | .mark _ _ => []

def toCallback : Entry → List (Level × String × String)
  | .said c _ m => if LogWanted c m.level ∧ c.callback = true then [(m.level, levelName m.level, logText c m)] else []
  | .mark _ _ => []

def inFile (n : String) : Entry → List String
  | .said c f m => if LogWanted c m.level ∧ f = some n then [logLine c m] else []
  | .mark f line => if f = some n then [line] else []

/-! ### Proofs -/

theorem dropped_int (q v : Bool) (l : Int) : ((decide (l < 2) && q) || (decide (l ≤ 0) && !v)) = true ↔ ¬ (2 ≤ l ∨ (q = false ∧ (0 < l ∨ v = true))) := by
  cases q <;> cases v <;> simp <;> omega

theorem dropped_iff (c : Settings) (l : Level) : dropped c l = true ↔ ¬ LogWanted c l := dropped_int c.quiet c.verbose l

theorem traced_eq (c : Settings) (m : Message) : traced c m = logText c m := by simp [traced, logText]

theorem signed_eq (c : Settings) (m : Message) : signed m.who (traced c m) = fullText c m := by
  rw [traced_eq, fullText]
  cases m.who <;> rfl

theorem lookup_store (l k : Level) (t : String) : ∀ b : List (Level × List String), ((store k t b).lookup l).getD [] = (b.lookup l).getD [] ++ if k = l then [t] else []
  | [] => by
    by_cases h : k = l
    · subst h; simp [store]
    · simp [store, List.lookup, h, beq_eq_false_iff_ne.mpr (Ne.symm h)]
  | (j, ts) :: r => by
    have ih := lookup_store l k t r
    unfold store
    by_cases hj : j = k
    · subst hj
      by_cases h : j = l
      · subst h; simp
      · simp [List.lookup, h, beq_eq_false_iff_ne.mpr (Ne.symm h)]
    · rw [if_neg hj]
      by_cases h : j = l
      · subst h; simp [Ne.symm hj]
      · simp only [List.lookup, beq_eq_false_iff_ne.mpr (Ne.symm h), ih]

theorem lookup_append (n k : String) (t : String) : ∀ b : List (String × List String), ((append k t b).lookup n).getD [] = (b.lookup n).getD [] ++ if k = n then [t] else []
  | [] => by
    by_cases h : k = n
    · subst h; simp [append]
    · simp [append, List.lookup, h, beq_eq_false_iff_ne.mpr (Ne.symm h)]
  | (j, ts) :: r => by
    have ih := lookup_append n k t r
    unfold append
    by_cases hj : j = k
    · subst hj
      by_cases h : j = n
      · subst h; simp
      · simp [List.lookup, h, beq_eq_false_iff_ne.mpr (Ne.symm h)]
    · rw [if_neg hj]
      by_cases h : j = n
      · subst h; simp [Ne.symm hj]
      · simp only [List.lookup, beq_eq_false_iff_ne.mpr (Ne.symm h), ih]

/-- Everything that can be seen of a state, after what happened. -/
structure LogShows (s t : State) (h : List Entry) : Prop where
  screen : t.screen = s.screen ++ h.flatMap onScreen
  calls : t.calls = s.calls ++ h.flatMap toCallback
  buffer : ∀ l, buffered l t = buffered l s ++ h.flatMap (inBuffer l)
  disk : ∀ n, lines n t = lines n s ++ h.flatMap (inFile n)

theorem LogShows.refl (s : State) : LogShows s s [] := ⟨by simp, by simp, by simp, by simp⟩

theorem LogShows.trans {s t u : State} {h k : List Entry} (a : LogShows s t h) (b : LogShows t u k) : LogShows s u (h ++ k) where
  screen := by rw [b.screen, a.screen, List.flatMap_append, List.append_assoc]
  calls := by rw [b.calls, a.calls, List.flatMap_append, List.append_assoc]
  buffer l := by rw [b.buffer, a.buffer, List.flatMap_append, List.append_assoc]
  disk n := by rw [b.disk, a.disk, List.flatMap_append, List.append_assoc]

theorem write_shows (line : String) (s : State) : LogShows s (writeFile line s) [.mark s.file line] := by
  unfold writeFile
  cases hf : s.file with
  | none => exact ⟨by simp [onScreen], by simp [toCallback], by simp [inBuffer], by simp [inFile]⟩
  | some f =>
    refine ⟨by simp [onScreen], by simp [toCallback], by simp [inBuffer, buffered], fun n => ?_⟩
    simp [inFile, lines, lookup_append]

theorem message_shows (m : Message) (s : State) : LogShows s (newMessage m s) [.said s.settings s.file m] ∧ (newMessage m s).settings = s.settings ∧ (newMessage m s).file = s.file := by
  unfold newMessage
  by_cases hw : LogWanted s.settings m.level
  · rw [if_neg (by rw [dropped_iff]; simpa using hw)]
    have e2 : ∀ c, fullText c m = signed m.who (logText c m) := fun c => by rw [← signed_eq, traced_eq]
    simp only [traced_eq]
    obtain ⟨c, b, f, sc, ca, d⟩ := s
    obtain ⟨q, v, dbg, pr, bu, cb⟩ := c
    cases pr <;> cases bu <;> cases cb <;> cases f <;>
      refine ⟨⟨?_, ?_, fun l => ?_, fun n => ?_⟩, ?_, ?_⟩ <;> simp [writeFile, hw, e2, logLine, onScreen, toCallback, inBuffer, inFile, buffered, lines, lookup_store, lookup_append]
  · rw [if_pos (by rw [dropped_iff]; exact hw)]
    refine ⟨⟨?_, ?_, fun l => ?_, fun n => ?_⟩, rfl, rfl⟩ <;> simp [onScreen, toCallback, inBuffer, inFile, hw]

theorem run_shows : ∀ (ops : List Op) (s : State), LogShows s (run ops s) (logHistory s.settings s.file ops)
  | [], s => LogShows.refl s
  | .message m :: ops, s => by
    obtain ⟨h1, h2, h3⟩ := message_shows m s
    have ih := run_shows ops (newMessage m s)
    rw [h2, h3] at ih
    exact h1.trans ih
  | .set c :: ops, s => by
    have ih := run_shows ops { s with settings := c }
    exact ⟨ih.screen, ih.calls, ih.buffer, ih.disk⟩
  | .file n a true t :: ops, s => by
    have h1 := write_shows "Starting Hachoir" { s with file := some n }
    have ih := run_shows ops (writeFile "Starting Hachoir" { s with file := some n })
    exact LogShows.trans (h := [.mark (some n) "Starting Hachoir"]) ⟨h1.screen, h1.calls, h1.buffer, h1.disk⟩ ih
  | .file n a false t :: ops, s => by
    obtain ⟨h1, h2, h3⟩ := message_shows (noSuchFile n t) { s with file := none }
    have ih := run_shows ops (newMessage (noSuchFile n t) { s with file := none })
    rw [h2, h3] at ih
    exact LogShows.trans (h := [.said s.settings none (noSuchFile n t)]) ⟨h1.screen, h1.calls, h1.buffer, h1.disk⟩ ih
  | .stop :: ops, s => by
    have h1 := write_shows "Stop Hachoir" s
    have e : (writeFile "Stop Hachoir" s).settings = s.settings ∧ (writeFile "Stop Hachoir" s).file = s.file := by
      unfold writeFile
      cases hf : s.file <;> simp [hf]
    have ih := run_shows ops (writeFile "Stop Hachoir" s)
    rw [e.1, e.2] at ih
    exact h1.trans ih

/-- **C180**: on the screen are the messages that are wanted, each once and in order, whatever else the program does. -/
theorem C180_screen (ops : List Op) (disk : List (String × List String)) :
    (run ops (.initial disk)).screen = (logHistory .initial none ops).flatMap onScreen := by
  simpa [State.initial] using (run_shows ops (.initial disk)).screen

/-- **C180**: so are they in the buffer, by level. -/
theorem C180_buffer (ops : List Op) (disk : List (String × List String)) (l : Level) :
    buffered l (run ops (.initial disk)) = (logHistory .initial none ops).flatMap (inBuffer l) := by
  simpa [State.initial, buffered] using (run_shows ops (.initial disk)).buffer l

/-- **C180**: so are they told to the callback, without the one who says them. -/
theorem C180_calls (ops : List Op) (disk : List (String × List String)) :
    (run ops (.initial disk)).calls = (logHistory .initial none ops).flatMap toCallback := by
  simpa [State.initial] using (run_shows ops (.initial disk)).calls

/-- **C180**: so are they at the end of the file in force, and no file loses a line. -/
theorem C180_file (ops : List Op) (disk : List (String × List String)) (n : String) :
    lines n (run ops (.initial disk)) = (disk.lookup n).getD [] ++ (logHistory .initial none ops).flatMap (inFile n) := by
  simpa [State.initial, lines] using (run_shows ops (.initial disk)).disk n

/-- **C180**: an error is shown on the screen whatever the settings, unless there is to be no screen. -/
theorem C180_error (m : Message) (s : State) (h : m.level = 2) (hp : s.settings.print = true) :
    (newMessage m s).screen = s.screen ++ [logLine s.settings m] := by
  have := (message_shows m s).1.screen
  simpa [onScreen, LogWanted, h, hp] using this

/-- **C180** (disagreement): to be quiet is stronger than to be verbose, so that with both neither warnings nor others are shown. -/
theorem C180_quiet (m : Message) (s : State) (h : m.level < 2) (hq : s.settings.quiet = true) : newMessage m s = s := by
  rw [newMessage, if_pos]
  simp [dropped, h, hq]

/-- **C180** (disagreement): a file is never begun anew, although `append=False` asks for it. -/
theorem C180_append (n t : String) (a b d : Bool) (s : State) : setFilename n a d t s = setFilename n b d t s := rfl

/-! ### Example -/

example : (run [.message ⟨1, "odd", some "<A>", ""⟩, .message ⟨0, "hidden", none, ""⟩, .set ⟨true, true, true, true, true, true⟩, .message ⟨2, "bad", none, "at x"⟩, .message ⟨1, "hushed", none, ""⟩] (.initial [])).screen
    = ["[warn] [<A>] odd", "[err!] bad\n\nat x"] := by decide +kernel

example : lines "f" (run [.file "f" false true "", .message ⟨2, "bad", none, ""⟩, .stop] (.initial [("f", ["old"])])) = ["old", "Starting Hachoir", "[err!] bad", "Stop Hachoir"] := by decide +kernel

end Hachoir.Props
