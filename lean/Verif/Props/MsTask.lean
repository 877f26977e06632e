import Verif.Formats.MsTask
import Verif.Props.Packed
import Verif.Props.Asf

/-!
# C173: jobs of the Windows task scheduler
-/

namespace Hachoir.Props
open Hachoir Hachoir.Stream Hachoir.Field Hachoir.Formats Hachoir.Formats.MsTask Spec _root_.Props

/-! ### Specification -/

/-- A text in UTF-16, with the number of its units. -/
def winBytes (b : Bytes) : Bytes := leBytes 2 (b.length / 2) ++ b

def WinFits (b : Bytes) : Prop := b.length % 2 = 0 ∧ b.length ≤ 65534

/-- A trigger; `b` are bytes behind its known fields. -/
inductive JobTrigger : Trigger → Bytes → Prop where
  | mk (a f c : List Nat) (b : Bytes) (ha : NumsFit [2, 2, 2, 2, 2, 2, 2, 2, 2, 4, 4] a) (hf : Fit [1, 1, 1, 29] f) (hc : NumsFit [4, 2, 2, 2, 2, 2, 2] c) (hb : 48 + b.length < 65536) :
      JobTrigger ⟨48 + b.length, a, f, c⟩
        (leBytes 2 (48 + b.length) ++ (numsBytes [2, 2, 2, 2, 2, 2, 2, 2, 2, 4, 4] a ++ (leBytes 4 (joinLE [1, 1, 1, 29] f) ++ (numsBytes [4, 2, 2, 2, 2, 2, 2] c ++ b))))

/-- The triggers. -/
inductive JobTriggers : List Trigger → Bytes → Prop where
  | nil : JobTriggers [] []
  | cons (t : Trigger) (b : Bytes) (ts : List Trigger) (bs : Bytes) (h : JobTrigger t b) (hs : JobTriggers ts bs) : JobTriggers (t :: ts) (b ++ bs)

/-- The reserved data and their size. -/
inductive JobReserved : MsTask.Reserved → Nat → Bytes → Prop where
  | nothing : JobReserved .nothing 0 []
  | start (e f : Nat) (h : e < 2 ^ 32 ∧ f < 2 ^ 32) : JobReserved (.start e f) 8 (leBytes 4 e ++ leBytes 4 f)
  | raw (b : Bytes) (h : b ≠ [] ∧ b.length ≠ 8 ∧ b.length < 65536) : JobReserved (.raw b) b.length b

def jobFlags : List Nat := [1, 1, 1, 1, 1, 1, 1, 1, 1, 1, 1, 1, 1, 1, 1, 1]

/-- The part of a job before the user data. -/
def jobHead (j : Job) (g : Bytes) : Bytes :=
  leBytes 2 j.windows ++ (leBytes 2 j.version ++ (g ++ (numsBytes [2, 2, 2, 2, 2, 2, 4, 4, 4, 4] j.head ++ (leBytes 2 (joinLE jobFlags j.flags) ++ (j.more ++
    (numsBytes [2, 2, 2, 2, 2, 2, 2, 2, 2] j.run ++ (winBytes j.app ++ (winBytes j.parameters ++ (winBytes j.directory ++ (winBytes j.author ++ winBytes j.comment))))))))))

structure JobFits (j : Job) (g : Bytes) : Prop where
  windows : j.windows < 65536
  version : j.version < 65536
  uuid : g.length = 16 ∧ j.uuid = guidText g
  head : NumsFit [2, 2, 2, 2, 2, 2, 4, 4, 4, 4] j.head
  flags : Fit jobFlags j.flags
  more : j.more.length = 2
  run : NumsFit [2, 2, 2, 2, 2, 2, 2, 2, 2] j.run
  app : WinFits j.app
  parameters : WinFits j.parameters
  directory : WinFits j.directory
  author : WinFits j.author
  comment : WinFits j.comment

/-! ### Proofs -/

/-- A field set of told size that reads only its beginning. -/
theorem reads_within_more {α : Type} {r : Rd α} {v : α} {xs : Bytes} (h : Reads r v xs) (n : Nat) (ys : Bytes) (hn : n = (xs ++ ys).length) : Reads (Rd.within n r) v (xs ++ ys) := by
  subst hn
  intro data s hs k stop hp _
  rw [Rd.within, h data s hs k _ (prefix_left (xs := xs) (ys := ys) hp) (by rw [List.length_append]; omega)]
  exact congrArg (fun n => Except.ok (v, n)) (by omega)

theorem reads_win (b : Bytes) (h : WinFits b) : Reads winString b (winBytes b) := by
  obtain ⟨h1, h2⟩ := h
  refine Reads.bind (reads_int_le 2 (b.length / 2) (by decide) (by omega)) ?_
  refine ReadsAll.within (Reads.all ?_) _ (by omega)
  cases b with
  | nil => exact reads_pure _
  | cons x xs =>
    simp only [List.length_cons] at h1 h2
    rw [winText, if_neg (by simp only [List.length_cons]; omega)]
    exact reads_fixed .little .utf16le (by decide) _ (x :: xs) (by simp only [List.length_cons]; omega) (by simp only [List.length_cons]; omega)

theorem reads_job_trigger {t : Trigger} {b : Bytes} (h : JobTrigger t b) : Reads trigger t b := by
  obtain ⟨a, f, c, b, ha, hf, hc, hb⟩ := h
  have nl : ∀ (ws vs : List Nat), NumsFit ws vs → (numsBytes ws vs).length = ws.sum := by
    intro ws
    induction ws with
    | nil => intro vs h; cases vs <;> simp_all [NumsFit, numsBytes]
    | cons w ws ih =>
      intro vs h
      cases vs with
      | nil => simp [NumsFit] at h
      | cons v vs =>
        obtain ⟨_, _, h3⟩ := h
        rw [numsBytes, List.length_append, leBytes_length, ih vs h3, List.sum_cons]
  have l1 := nl _ _ ha
  have l2 := nl _ _ hc
  refine Reads.bind (reads_int_le 2 (48 + b.length) (by decide) (by omega)) ?_
  have hr : Reads (triggerRest (48 + b.length)) ⟨48 + b.length, a, f, c⟩ (numsBytes [2, 2, 2, 2, 2, 2, 2, 2, 2, 4, 4] a ++ (leBytes 4 (joinLE [1, 1, 1, 29] f) ++ numsBytes [4, 2, 2, 2, 2, 2, 2] c)) :=
    Reads.bind (reads_numbers _ a ha) (Reads.bind (reads_packed_le 4 [1, 1, 1, 29] f (by decide) rfl hf)
      (Reads.map (f := fun c => (⟨48 + b.length, a, f, c⟩ : Trigger)) (reads_numbers _ c hc)))
  refine (reads_within_more hr (48 + b.length - 2) b ?_).of_eq rfl (by simp only [List.append_assoc])
  simp only [List.length_append, l1, l2, leBytes_length]
  simp
  omega

theorem reads_triggers {ts : List Trigger} {b : Bytes} (h : JobTriggers ts b) : Reads (Rd.times trigger ts.length) ts b := by
  induction h with
  | nil => exact reads_rpure _
  | cons t b ts bs h hs ih => exact Reads.rbind (reads_job_trigger h) (Reads.rmap (f := fun l => t :: l) ih)

theorem reads_job_reserved {r : MsTask.Reserved} {n : Nat} {b : Bytes} (h : JobReserved r n b) : n < 65536 ∧ Reads (reserved n) r b := by
  cases h with
  | nothing => exact ⟨by decide, reads_pure _⟩
  | start e f h =>
    exact ⟨by decide, Reads.bind (reads_int_le 4 e (by decide) (by omega)) (Reads.map (f := MsTask.Reserved.start e) (reads_int_le 4 f (by decide) (by omega)))⟩
  | raw _ h =>
    have h0 := List.length_pos_of_ne_nil h.1
    refine ⟨h.2.2, ?_⟩
    rw [reserved, if_neg h.2.1, if_neg (by omega)]
    exact Reads.map (f := MsTask.Reserved.raw) (reads_raw_n _ b rfl h0)

/-- The fields are read one behind the other, whatever the size of the user data is. -/
theorem reads_job (j : Job) (g : Bytes) (h : JobFits j g) (hu : j.userSize < 65536) (rb : Bytes) (hr : JobReserved j.reserved j.reservedSize rb) (tb : Bytes) (ht : JobTriggers j.triggers tb)
    (hn : j.triggers.length < 65536) :
    Reads job j (jobHead j g ++ (leBytes 2 j.userSize ++ (leBytes 2 j.reservedSize ++ (rb ++ (leBytes 2 j.triggers.length ++ tb))))) := by
  obtain ⟨h1, h2, ⟨h3, h3'⟩, h4, h5, h6, h7, h8, h9, h10, h11, h12⟩ := h
  obtain ⟨r1, r2⟩ := reads_job_reserved hr
  obtain ⟨w, v, u, hd, fl, m, run, a, p, d, au, c, us, rs, res, ts⟩ := j
  simp only at *
  subst h3'
  refine Reads.of_eq (Reads.bind (reads_int_le 2 w (by decide) (by omega)) (Reads.bind (reads_int_le 2 v (by decide) (by omega)) (Reads.bind (reads_guid g h3) (Reads.bind (reads_numbers _ hd h4)
    (Reads.bind (reads_packed_le 2 jobFlags fl (by decide) (by decide) h5) (Reads.bind (reads_raw_n 2 m h6 (by decide)) (Reads.bind (reads_numbers _ run h7) (Reads.bind (reads_win a h8)
      (Reads.bind (reads_win p h9) (Reads.bind (reads_win d h10) (Reads.bind (reads_win au h11) (Reads.bind (reads_win c h12) (Reads.bind (reads_int_le 2 us (by decide) (by omega))
        (Reads.bind (reads_int_le 2 rs (by decide) (by omega)) (Reads.bind r2 (Reads.bind (reads_int_le 2 ts.length (by decide) (by omega))
          (Reads.map (f := fun ts => (⟨w, v, guidText g, hd, fl, m, run, a, p, d, au, c, us, rs, res, ts⟩ : Job)) (reads_triggers ht)))))))))))))))))) rfl ?_
  simp only [jobHead, List.append_assoc]

/-- **C173**: a job without user data is read as it was written: the program, its parameters and directory, author and comment, the time of the last run, the flags, and all triggers. -/
theorem C173_job (j : Job) (g : Bytes) (h : JobFits j g) (hu : j.userSize = 0) (rb : Bytes) (hr : JobReserved j.reserved j.reservedSize rb) (tb : Bytes) (ht : JobTriggers j.triggers tb)
    (hn : j.triggers.length < 65536) :
    Reads job j (jobHead j g ++ (leBytes 2 0 ++ (leBytes 2 j.reservedSize ++ (rb ++ (leBytes 2 j.triggers.length ++ tb))))) := by
  have := reads_job j g h (by omega) rb hr tb ht hn
  rwa [hu] at this

/-- **C173** (disagreement): user data are not skipped.  A job with `n` bytes of user data that begin with four zeros is shown without reserved data and without triggers, whatever follows. -/
theorem C173_user (j : Job) (g : Bytes) (h : JobFits j g) (n : Nat) (hn : 4 ≤ n ∧ n < 65536) :
    Reads job { j with userSize := n, reservedSize := 0, reserved := .nothing, triggers := [] } (jobHead j g ++ (leBytes 2 n ++ [0, 0, 0, 0])) := by
  have := reads_job { j with userSize := n, reservedSize := 0, reserved := .nothing, triggers := [] } g ⟨h.1, h.2, h.3, h.4, h.5, h.6, h.7, h.8, h.9, h.10, h.11, h.12⟩ hn.2 [] .nothing [] .nil
    (by show 0 < 65536; decide)
  refine this.of_eq rfl ?_
  show jobHead j g ++ (leBytes 2 n ++ (leBytes 2 0 ++ ([] ++ (leBytes 2 0 ++ [])))) = _
  rw [show leBytes 2 0 = [0, 0] by decide +kernel]
  rfl

/-- **C173**: files of the five versions of Windows, and no others, are taken. -/
theorem C173_valid (j : Job) : valid j = true ↔ j.windows = 0x400 ∨ j.windows = 0x500 ∨ j.windows = 0x501 ∨ j.windows = 0x600 ∨ j.windows = 0x601 := by
  simp [valid]

/-- **C173**: the flag at a place is the bit of that place. -/
theorem C173_flag (j : Job) (g : Bytes) (h : JobFits j g) (i : Nat) (hi : i < 16) : flag j i = (joinLE jobFlags j.flags).testBit i := by
  have hf := h.flags
  unfold flag
  generalize j.flags = l at hf
  have key : ∀ (n : Nat) (l : List Nat), Fit (List.replicate n 1) l → ∀ i, i < n → decide (l.getD i 0 = 1) = (joinLE (List.replicate n 1) l).testBit i := by
    intro n
    induction n with
    | zero => intro l _ i hi; omega
    | succ n ih =>
      intro l hl i hi
      cases l with
      | nil => simp [List.replicate_succ, Fit] at hl
      | cons x l =>
        rw [List.replicate_succ] at hl ⊢
        obtain ⟨h1, h2⟩ := hl
        rw [joinLE]
        cases i with
        | zero =>
          have : x = 0 ∨ x = 1 := by omega
          rcases this with rfl | rfl <;> simp [Nat.testBit_zero]
        | succ i =>
          have e := ih l h2 i (by omega)
          rw [List.getD_cons_succ, e, Nat.testBit_succ]
          congr 1
          omega
  exact key 16 l hf i hi

/-- **C173** (disagreement): the scheduler marks a hidden task with 0x200 (`TASK_FLAG_HIDDEN`); it is shown as one that needs the internet, not as a hidden one. -/
theorem C173_hidden (j : Job) (g : Bytes) (h : JobFits j g) (hf : joinLE jobFlags j.flags = 0x200) : flag j 8 = false ∧ flag j 9 = true := by
  rw [C173_flag j g h 8 (by decide), C173_flag j g h 9 (by decide), hf]
  decide

/-! ### Example -/

def dailyTrigger : Trigger := ⟨50, [0, 2010, 11, 1, 0, 0, 0, 9, 30, 0, 0], [0, 0, 1, 0], [1, 1, 0, 0, 0, 0, 0]⟩

def dailyJob : Job :=
  ⟨0x501, 1, guidText (List.replicate 16 7), [70, 0, 3, 5, 60, 15, 32, 259200000, 0, 0x41303], [0, 0, 0, 0, 0, 0, 0, 0, 0, 1, 0, 0, 0, 0, 0, 0], [0, 1], [2010, 11, 2, 9, 30, 0, 0, 0, 0], [97, 0, 0, 0], [],
    [], [120, 0], [], 0, 8, .start 0 1, [dailyTrigger, dailyTrigger]⟩

theorem daily_fits : JobFits dailyJob (List.replicate 16 7) where
  windows := by decide
  version := by decide
  uuid := ⟨rfl, rfl⟩
  head := by simp [dailyJob, NumsFit]
  flags := by simp [dailyJob, Fit, jobFlags]
  more := rfl
  run := by simp [dailyJob, NumsFit]
  app := by simp [dailyJob, WinFits]
  parameters := by simp [dailyJob, WinFits]
  directory := by simp [dailyJob, WinFits]
  author := by simp [dailyJob, WinFits]
  comment := by simp [dailyJob, WinFits]

theorem daily_trigger : ∃ b, JobTrigger dailyTrigger b :=
  ⟨_, .mk [0, 2010, 11, 1, 0, 0, 0, 9, 30, 0, 0] [0, 0, 1, 0] [1, 1, 0, 0, 0, 0, 0] [1, 2] (by simp [NumsFit]) (by simp [Fit]) (by simp [NumsFit]) (by decide)⟩

example : ∃ tb, Reads job dailyJob (jobHead dailyJob (List.replicate 16 7) ++ (leBytes 2 0 ++ (leBytes 2 8 ++ ((leBytes 4 0 ++ leBytes 4 1) ++ (leBytes 2 2 ++ tb))))) := by
  obtain ⟨b, hb⟩ := daily_trigger
  exact ⟨_, C173_job dailyJob _ daily_fits rfl _ (.start 0 1 (by decide)) _ (.cons _ _ _ _ hb (.cons _ _ _ _ hb .nil)) (by decide)⟩

example : flag dailyJob 8 = false ∧ flag dailyJob 9 = true := C173_hidden dailyJob _ daily_fits (by decide +kernel)

end Hachoir.Props
