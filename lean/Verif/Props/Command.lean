import Verif.Metadata.Command

/-!
# C194: the command for metadata
-/

namespace Hachoir.Props
open Hachoir Hachoir.Metadata Hachoir.Metadata.Command

/-- A file is understood: it has a parser, and metadata if these are asked for. -/
def Understood (v : Values) (s : Source) : Prop :=
  match s with
  | .parsed _ _ extract => v.type = true ∨ v.mime = true ∨ ∃ m, extract = some m ∧ ∃ d ∈ m.data, d.values ≠ []
  | _ => False

/-- What is printed for a file that is understood, without its name. -/
def linesFor (env : Env) (v : Values) (s : Source) : List Text :=
  match s with
  | .parsed description mime extract =>
    if v.type then [description] else if v.mime then [mime]
    else match extract with
      | some m => (m.exportPlaintext env (some (100 * v.level + 99)) (!v.raw) (txt "- ") none).getD [txt "(no metadata, priority may be too small)"]
      | none => []
  | _ => []

/-- Parsers do not raise exceptions. -/
def NoCrash (s : Source) : Prop := ∀ e, s ≠ .crash e

theorem non_empty_iff (m : Metadata) : m.nonEmpty = true ↔ ∃ d ∈ m.data, d.values ≠ [] := by
  simp [Metadata.nonEmpty, List.any_eq_true]

/-- One file. -/
theorem process_file (env : Env) (v : Values) (name : Text) (s : Source) (many : Bool) (display : Bool) (hs : NoCrash s) : ∃ lines ok,
    processFile env v name s many (v.level * 100 + 99) (!v.raw) display = .ok (lines, ok) ∧ (ok = true ↔ Understood v s) ∧
      (ok = false → lines = []) ∧ (ok = true → lines = if display then (linesFor env v s).map (shown many name) else []) := by
  cases s with
  | noStream => exact ⟨[], false, rfl, by simp [Understood], by simp, by simp⟩
  | noParser => exact ⟨[], false, rfl, by simp [Understood], by simp, by simp⟩
  | crash e => exact absurd rfl (hs e)
  | parsed description mime extract =>
    by_cases h : (v.mime || v.type) = true
    · refine ⟨if display then [shown many name (if v.type then description else mime)] else [], true, by simp only [processFile, h, if_true], ?_, by simp, ?_⟩
      · rw [Bool.or_eq_true] at h
        simp only [true_iff]
        exact h.elim (fun a => .inr (.inl a)) .inl
      · intro _
        cases display
        · simp
        · cases ht : v.type
          · have hm : v.mime = true := by simpa [ht] using h
            simp [linesFor, ht, hm]
          · simp [linesFor, ht]
    · have h' : v.mime = false ∧ v.type = false := by simpa using h
      cases extract with
      | none =>
        refine ⟨[], false, by simp only [processFile, h, if_false, Bool.false_eq_true], ?_, by simp, by simp⟩
        simp [Understood, h']
      | some m =>
        cases hn : m.nonEmpty with
        | false =>
          refine ⟨[], false, by simp only [processFile, h, hn, if_false, Bool.false_eq_true], ?_, by simp, by simp⟩
          have : ¬ ∃ d ∈ m.data, d.values ≠ [] := fun c => by rw [(non_empty_iff m).2 c] at hn; cases hn
          simp only [Understood, h', Bool.false_eq_true, false_or, Option.some.injEq, false_iff]
          rintro ⟨m', rfl, c⟩
          exact this c
        | true =>
          refine ⟨if display then ((m.exportPlaintext env (some (v.level * 100 + 99)) (!v.raw) (txt "- ") none).getD
            [txt "(no metadata, priority may be too small)"]).map (shown many name) else [], true, by simp only [processFile, h, hn, if_false, if_true, Bool.false_eq_true], ?_, by simp, ?_⟩
          · simp only [true_iff]
            exact .inr (.inr ⟨m, rfl, (non_empty_iff m).1 hn⟩)
          · intro _
            cases display
            · simp
            · simp only [if_true, linesFor, h', Bool.false_eq_true, if_false]
              rw [Int.mul_comm]

open scoped Classical in
/-- What is printed for some files. -/
noncomputable def output (env : Env) (v : Values) (many : Bool) (files : List (Text × Source)) : List Text :=
  files.flatMap fun f => if Understood v f.2 then (linesFor env v f.2).map (shown many f.1) else []

open scoped Classical in
theorem loop_files (env : Env) (v : Values) (many display : Bool) : ∀ (files : List (Text × Source)) (ok : Bool), (∀ f ∈ files, NoCrash f.2) → ∃ r,
    loop env v many (v.level * 100 + 99) (!v.raw) display files ok = (if display then output env v many files else [], .ok r) ∧
      (r = true ↔ ok = true ∧ ∀ f ∈ files, Understood v f.2)
  | [], ok, _ => ⟨ok, by cases display <;> rfl, by simp⟩
  | (name, s) :: files, ok, h => by
    obtain ⟨lines, r, e, h1, h2, h3⟩ := process_file env v name s many display (h (name, s) (by simp))
    obtain ⟨r', e', h'⟩ := loop_files env v many display files (ok && r) fun f hf => h f (by simp [hf])
    refine ⟨r', ?_, ?_⟩
    · rw [Command.loop]
      simp only [e, e']
      congr 1
      have : output env v many ((name, s) :: files) = (if Understood v s then (linesFor env v s).map (shown many name) else []) ++ output env v many files := by
        rw [output, List.flatMap_cons]; rfl
      cases r with
      | true =>
        have hu := h1.1 rfl
        rw [h3 rfl, this, if_pos hu]
        cases display <;> rfl
      | false =>
        have hu : ¬ Understood v s := fun c => by cases h1.2 c
        rw [h2 rfl, this, if_neg hu]
        cases display <;> rfl
    · rw [h', Bool.and_eq_true, h1]
      simp only [List.mem_cons, forall_eq_or_imp]
      exact and_assoc

/-- **C194** All files are processed, also behind files that fail, in the order given; the name is shown exactly if there are several. The status at exit is 0 exactly if all
of them were understood. -/
theorem C194_status (env : Env) (v : Values) (files : List (Text × Source)) (hp : v.profiler = false) (hb : v.bench = false) (h : ∀ f ∈ files, NoCrash f.2) :
    ∃ n, Command.main env v files = (output env v (decide (1 < files.length)) files, .ok n) ∧ (n = 0 ↔ ∀ f ∈ files, Understood v f.2) ∧ n ≤ 1 := by
  obtain ⟨r, e, hr⟩ := loop_files env v (decide (1 < files.length)) true files true h
  refine ⟨if r then 0 else 1, ?_, ?_, by split <;> omega⟩
  · rw [Command.main]
    simp only [hp, hb, Bool.false_eq_true, if_false, processFiles, e, if_true]
  · simp only [true_and] at hr
    rw [← hr]
    cases r <;> simp

/-- **C194** With a benchmark nothing is printed of the metadata, and the status is 1, even if all files were understood. -/
theorem C194_bench (env : Env) (v : Values) (files : List (Text × Source)) (hp : v.profiler = false) (hb : v.bench = true) (h : ∀ f ∈ files, NoCrash f.2) :
    Command.main env v files = ([], .ok 1) := by
  obtain ⟨r, e, -⟩ := loop_files env v (decide (1 < files.length)) false files true h
  rw [Command.main]
  simp only [hp, hb, Bool.false_eq_true, if_false, if_true, processFiles, e]

open scoped Classical in
/-- **C194** An exception of a parser ends the command: files behind it are not looked at, and the lines printed are those of the files in front of it. -/
theorem C194_crash (env : Env) (v : Values) (before behind : List (Text × Source)) (name : Text) (err : PyErr) (hp : v.profiler = false) (hb : v.bench = false)
    (h : ∀ f ∈ before, NoCrash f.2) :
    Command.main env v (before ++ (name, .crash err) :: behind) =
      (output env v (decide (1 < (before ++ (name, Source.crash err) :: behind).length)) before, .error err) := by
  have key : ∀ (many : Bool) (before : List (Text × Source)) (ok : Bool), (∀ f ∈ before, NoCrash f.2) →
      loop env v many (v.level * 100 + 99) (!v.raw) true (before ++ (name, .crash err) :: behind) ok = (output env v many before, .error err) := by
    intro many l
    induction l with
    | nil => exact fun ok _ => rfl
    | cons f l ih =>
      intro ok h
      obtain ⟨n, s⟩ := f
      obtain ⟨lines, r, e, h1, h2, h3⟩ := process_file env v n s many true (h (n, s) (by simp))
      have e' := ih (ok && r) fun f hf => h f (by simp [hf])
      rw [List.cons_append, Command.loop]
      simp only [e, e']
      congr 1
      have : output env v many ((n, s) :: l) = (if Understood v s then (linesFor env v s).map (shown many n) else []) ++ output env v many l := by
        rw [output, List.flatMap_cons]; rfl
      cases r with
      | true => rw [h3 rfl, this, if_pos (h1.1 rfl)]; rfl
      | false => rw [h2 rfl, this, if_neg fun c => by cases h1.2 c]
  rw [Command.main]
  simp only [hp, hb, Bool.false_eq_true, if_false]
  rw [processFiles, key _ before true h]

/-- One file that has no parser and one whose type is told. -/
example (env : Env) : ∃ n, Command.main env ⟨true, false, 9, false, false, false⟩ [(txt "a", .noParser), (txt "b", .parsed (txt "Zip") [] none)] =
    ([txt "b" ++ txt ": " ++ txt "Zip"], .ok n) ∧ n = 1 := ⟨1, rfl, rfl⟩

end Hachoir.Props
