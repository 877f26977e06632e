import Verif.Metadata.Csv
import Verif.Props.Printable

/-!
# C200: the table of metadata
-/

namespace Hachoir.Props
open Hachoir Hachoir.Csv

/-! ### Specification -/

/-- A text cut at every separator. -/
def cells (sep : Nat) : List Nat → List (List Nat)
  | [] => [[]]
  | c :: t =>
    if c = sep then [] :: cells sep t
    else
      match cells sep t with
      | [] => [[c]]
      | x :: xs => (c :: x) :: xs

/-- The row of a file, if its metadata are told: its name and the texts of the fields, printable. -/
def csvRow (fields : List (List Nat)) (name : List Nat) : Outcome → Option (List (List Nat))
  | .told text => some (Csv.printable name :: fields.map fun f => Csv.printable ((text f).getD []))
  | _ => none

/-- All characters are those of Unicode. -/
def CsvValid (outcome : List Nat → Outcome) (names : List (List Nat)) : Prop :=
  ∀ n ∈ names, (∀ c ∈ n, c < 0x110000) ∧ ∀ text, outcome n = .told text → ∀ f t, text f = some t → ∀ c ∈ t, c < 0x110000

/-- A row in one line: columns are parted by a semicolon and a blank. -/
def csvLine : List (List Nat) → List Nat
  | [] => []
  | x :: xs => x ++ xs.flatMap fun y => 59 :: 32 :: y

/-! ### Cutting -/

theorem cells_none (sep : Nat) : ∀ t : List Nat, sep ∉ t → cells sep t = [t]
  | [], _ => rfl
  | c :: t, h => by
    rw [List.mem_cons, not_or] at h
    rw [cells, if_neg (fun e => h.1 e.symm), cells_none sep t h.2]

theorem cells_cut (sep : Nat) (r : List Nat) : ∀ t : List Nat, sep ∉ t → cells sep (t ++ sep :: r) = t :: cells sep r
  | [], _ => by rw [List.nil_append, cells, if_pos rfl]
  | c :: t, h => by
    rw [List.mem_cons, not_or] at h
    rw [List.cons_append, cells, if_neg (fun e => h.1 e.symm), cells_cut sep r t h.2]

theorem cells_lines (sep : Nat) : ∀ ls : List (List Nat), (∀ l ∈ ls, sep ∉ l) → cells sep (ls.flatMap (· ++ [sep])) = ls ++ [[]]
  | [], _ => rfl
  | l :: ls, h => by
    rw [List.flatMap_cons, List.append_assoc, List.singleton_append, cells_cut sep _ l (h l (List.mem_cons_self ..)), cells_lines sep ls fun x hx => h x (List.mem_cons_of_mem _ hx)]
    rfl

theorem join_line : ∀ xs : List (List Nat), Csv.join xs = csvLine xs
  | [] => rfl
  | [t] => by rw [Csv.join, csvLine, List.flatMap_nil, List.append_nil]
  | t :: u :: ts => by rw [Csv.join, join_line (u :: ts), csvLine, csvLine, List.flatMap_cons]; rfl; simp

theorem printable_clean (t : List Nat) (h : ∀ c ∈ t, c < 0x110000) : ∀ c ∈ Csv.printable t, 32 ≤ c :=
  fun c hc => (C17_no_control (.text t) .utf8 none true h (by simp) c hc).1

theorem row_clean (fields : List (List Nat)) (outcome : List Nat → Outcome) (names : List (List Nat)) (hv : CsvValid outcome names) (n : List Nat) (hn : n ∈ names) (row : List (List Nat))
    (h : csvRow fields n (outcome n) = some row) : ∀ x ∈ row, ∀ c ∈ x, 32 ≤ c := by
  obtain ⟨h1, h2⟩ := hv n hn
  cases ho : outcome n with
  | told text =>
    rw [ho, csvRow, Option.some_inj] at h
    subst h
    intro x hx
    rw [List.mem_cons, List.mem_map] at hx
    rcases hx with rfl | ⟨f, -, rfl⟩
    · exact printable_clean n h1
    · cases hf : text f with
      | none => exact printable_clean _ (by simp)
      | some t => exact printable_clean _ (h2 text ho f t hf)
  | _ => rw [ho] at h; cases h

theorem line_clean (row : List (List Nat)) (h : ∀ x ∈ row, ∀ c ∈ x, 32 ≤ c) : 10 ∉ csvLine row := by
  cases row with
  | nil => simp [csvLine]
  | cons x xs =>
    intro hm
    rw [csvLine, List.mem_append, List.mem_flatMap] at hm
    rcases hm with hm | ⟨y, hy, hm⟩
    · exact absurd (h x (List.mem_cons_self ..) 10 hm) (by omega)
    · simp only [List.mem_cons] at hm
      rcases hm with hm | hm | hm
      · omega
      · omega
      · exact absurd (h y (List.mem_cons_of_mem _ hy) 10 hm) (by omega)

/-! ### The loop -/

theorem process_row (fields : List (List Nat)) (n : List Nat) (o : Outcome) (ho : ∀ e, o ≠ .raises e) : processFile fields n o = .ok ((csvRow fields n o).map csvLine) := by
  cases o with
  | raises e => exact absurd rfl (ho e)
  | told text => rw [processFile, join_line]; rfl
  | _ => rfl

theorem line_ne (fields : List (List Nat)) (hf : fields ≠ []) (n : List Nat) (o : Outcome) (row : List (List Nat)) (h : csvRow fields n o = some row) : csvLine row ≠ [] := by
  cases o with
  | told text =>
    rw [csvRow, Option.some_inj] at h
    subst h
    cases fields with
    | nil => exact absurd rfl hf
    | cons f fs => simp [csvLine]
  | _ => cases h

theorem loop_rows (fields : List (List Nat)) (hf : fields ≠ []) (outcome : List Nat → Outcome) : ∀ (names : List (List Nat)) (s : State), (∀ n ∈ names, ∀ e, outcome n ≠ .raises e) →
    loop fields outcome names s = (⟨s.output ++ ((names.filterMap fun n => csvRow fields n (outcome n)).map csvLine).flatMap (· ++ [10]), s.total + names.length,
      s.invalid + (names.length - (names.filterMap fun n => csvRow fields n (outcome n)).length)⟩, none)
  | [], s, _ => by simp [loop]
  | n :: names, s, h => by
    have ih := fun s => loop_rows fields hf outcome names s fun x hx => h x (List.mem_cons_of_mem _ hx)
    have hl : (names.filterMap fun n => csvRow fields n (outcome n)).length ≤ names.length := List.length_filterMap_le ..
    rw [loop, process_row fields n _ (h n (List.mem_cons_self ..))]
    cases hr : csvRow fields n (outcome n) with
    | none =>
      rw [List.filterMap_cons_none (f := fun n => csvRow fields n (outcome n)) hr]
      simp only [Option.map_none]
      rw [ih]
      simp only [List.length_cons, Prod.mk.injEq, State.mk.injEq, and_true, true_and]
      omega
    | some row =>
      rw [List.filterMap_cons_some (f := fun n => csvRow fields n (outcome n)) hr]
      simp only [Option.map_some]
      rw [if_neg (line_ne fields hf n _ row hr), ih]
      simp only [List.length_cons, List.map_cons, List.flatMap_cons, List.append_assoc, Prod.mk.injEq, State.mk.injEq, and_true, true_and]
      omega

theorem split_ne : ∀ t : List Nat, splitComma t ≠ []
  | [] => by simp [splitComma]
  | c :: t => by
    rw [splitComma]
    split
    · simp
    · split <;> simp

/-- The fields asked for. -/
def csvFields (strip : List Nat → List Nat) (arg : List Nat) : List (List Nat) := (cells 44 arg).map strip

theorem split_cells : ∀ t : List Nat, splitComma t = cells 44 t
  | [] => rfl
  | c :: t => by
    rw [splitComma, cells, ← split_cells t]
    have := split_ne t
    cases hs : splitComma t with
    | nil => exact absurd hs this
    | cons x xs => rfl

theorem main_loop (lower strip : List Nat → List Nat) (walk : List (List Nat × List (List Nat))) (outcome : List Nat → Outcome) (arg : List Nat) :
    Csv.main lower strip walk outcome arg = loop (csvFields strip arg) outcome (findFiles lower walk) ⟨[], 0, 0⟩ := by
  rw [Csv.main, split_cells]; rfl

/-- The rows of the files found. -/
def csvRows (strip : List Nat → List Nat) (outcome : List Nat → Outcome) (arg : List Nat) (names : List (List Nat)) : List (List (List Nat)) :=
  names.filterMap fun n => csvRow (csvFields strip arg) n (outcome n)

/-- **C200** If every file can be opened, the table has one line for every file whose metadata are told, in the order in which the files are found: cut at its newlines it is these lines, whatever characters the names and the
texts have. All files are counted, and those without a line as invalid. -/
theorem C200_lines_partial (lower strip : List Nat → List Nat) (walk : List (List Nat × List (List Nat))) (outcome : List Nat → Outcome) (arg : List Nat) (hv : CsvValid outcome (findFiles lower walk))
    (ho : ∀ n ∈ findFiles lower walk, ∀ e, outcome n ≠ .raises e) :
    let r := Csv.main lower strip walk outcome arg
    r.2 = none ∧ cells 10 r.1.output = (csvRows strip outcome arg (findFiles lower walk)).map csvLine ++ [[]] ∧ r.1.total = (findFiles lower walk).length ∧
      r.1.invalid + (csvRows strip outcome arg (findFiles lower walk)).length = r.1.total := by
  have hf : csvFields strip arg ≠ [] := by rw [csvFields, ← split_cells]; simpa using split_ne arg
  have hl : (csvRows strip outcome arg (findFiles lower walk)).length ≤ (findFiles lower walk).length := List.length_filterMap_le ..
  have h := loop_rows (csvFields strip arg) hf outcome (findFiles lower walk) ⟨[], 0, 0⟩ ho
  rw [← main_loop lower strip walk outcome arg] at h
  simp only [h, List.nil_append, Nat.zero_add, true_and]
  refine ⟨cells_lines 10 _ ?_, ?_⟩
  · intro l hl
    obtain ⟨row, hrow, rfl⟩ := List.mem_map.1 hl
    obtain ⟨n, hn, hr⟩ := List.mem_filterMap.1 hrow
    exact line_clean row (row_clean _ outcome _ hv n hn row hr)
  · rw [csvRows] at hl ⊢
    omega

theorem cells_columns : ∀ xs : List (List Nat), (∀ y ∈ xs, 59 ∉ y) → ∀ x : List Nat, 59 ∉ x → cells 59 (csvLine (x :: xs)) = x :: xs.map (32 :: ·)
  | [], _, x, hx => by rw [csvLine, List.flatMap_nil, List.append_nil, cells_none 59 x hx]; rfl
  | y :: ys, h, x, hx => by
    have hy : 59 ∉ 32 :: y := by simpa using h y (List.mem_cons_self ..)
    have := cells_columns ys (fun z hz => h z (List.mem_cons_of_mem _ hz)) (32 :: y) hy
    rw [csvLine] at this
    rw [csvLine, List.flatMap_cons, List.cons_append, cells_cut 59 _ x hx, this]
    rfl

/-- **C200** The columns of a line can be read back if no column has a semicolon: cut at the semicolons the line is the name of the file and, each behind a blank, the texts of the fields in the order asked for. -/
theorem C200_columns_partial (fields : List (List Nat)) (name : List Nat) (text : List Nat → Option (List Nat)) (hn : 59 ∉ Csv.printable name) (ht : ∀ f ∈ fields, 59 ∉ Csv.printable ((text f).getD [])) :
    ∃ line, processFile fields name (.told text) = .ok (some line) ∧ cells 59 line = Csv.printable name :: fields.map fun f => 32 :: Csv.printable ((text f).getD []) := by
  refine ⟨_, process_row fields name (.told text) (by simp), ?_⟩
  rw [cells_columns _ (by
    intro y hy
    obtain ⟨f, hf, rfl⟩ := List.mem_map.1 hy
    exact ht f hf) _ hn, List.map_map]
  rfl

/-- **C200** (disagreement): the columns are not quoted: different titles and authors give the same line. -/
theorem C200_ambiguous : ∃ (fields : List (List Nat)) (name : List Nat) (text text' : List Nat → Option (List Nat)), (∃ f ∈ fields, text f ≠ text' f) ∧
    processFile fields name (.told text) = processFile fields name (.told text') :=
  ⟨[[116], [97]], [120], fun f => if f = [116] then some [49, 59, 32, 50] else some [51], fun f => if f = [116] then some [49] else some [50, 59, 32, 51], ⟨[116], by simp, by simp⟩, by rfl⟩

/-- **C200** (disagreement): a file that cannot be opened, or is empty, ends the export: files found after it are neither told nor counted. -/
theorem C200_ends (fields : List (List Nat)) (hf : fields ≠ []) (outcome : List Nat → Outcome) (names later : List (List Nat)) (bad : List Nat) (e : PyErr) (hb : outcome bad = .raises e)
    (ho : ∀ n ∈ names, ∀ e, outcome n ≠ .raises e) :
    let rows := names.filterMap fun n => csvRow fields n (outcome n)
    loop fields outcome (names ++ bad :: later) ⟨[], 0, 0⟩ = (⟨(rows.map csvLine).flatMap (· ++ [10]), names.length + 1, names.length - rows.length⟩, some e) := by
  have step : ∀ (names : List (List Nat)) (s : State), (∀ n ∈ names, ∀ e, outcome n ≠ .raises e) →
      loop fields outcome (names ++ bad :: later) s = ({ (loop fields outcome names s).1 with total := s.total + names.length + 1 }, some e) := by
    intro names
    induction names with
    | nil =>
      intro s _
      rw [List.nil_append]
      have : loop fields outcome (bad :: later) s = ({ s with total := s.total + 1 }, some e) := by rw [loop, hb, processFile]
      rw [this]
      rfl
    | cons n ns ih =>
      intro s h
      have ih := fun s => ih s fun x hx => h x (List.mem_cons_of_mem _ hx)
      rw [List.cons_append, loop, loop, process_row fields n _ (h n (List.mem_cons_self ..))]
      cases hr : csvRow fields n (outcome n) with
      | none =>
        simp only [Option.map_none]
        rw [ih]
        simp only [List.length_cons, Prod.mk.injEq, State.mk.injEq, and_true, true_and]
        omega
      | some row =>
        simp only [Option.map_some]
        rw [if_neg (line_ne fields hf n _ row hr), if_neg (line_ne fields hf n _ row hr), ih]
        simp only [List.length_cons, Prod.mk.injEq, State.mk.injEq, and_true, true_and]
        omega
  have := step names ⟨[], 0, 0⟩ ho
  rw [this, loop_rows fields hf outcome names _ ho]
  simp

/-- The path of a name in a directory: one slash is between them. -/
def InDirectory (dir name path : List Nat) : Prop :=
  (path = dir ++ name ∧ (dir = [] ∨ ∃ d, dir = d ++ [47])) ∨ (path = dir ++ [47] ++ name ∧ ∃ d c, dir = d ++ [c] ∧ c ≠ 47)

theorem path_join (dir name path : List Nat) : path = pathJoin dir name ↔ InDirectory dir name path := by
  rcases List.eq_nil_or_concat dir with rfl | ⟨d, c, rfl⟩
  · simp [pathJoin, InDirectory]
  · rw [List.concat_eq_append, pathJoin, List.getLast?_concat]
    simp only [InDirectory]
    by_cases hc : c = 47
    · subst hc
      simp
    · simp [hc]
      exact fun _ => ⟨d, c, ⟨rfl, rfl⟩, hc⟩

/-- **C200** The files found are those whose names end with `.doc`, in small or capital letters, each in its directory. -/
theorem C200_found (lower : List Nat → List Nat) (walk : List (List Nat × List (List Nat))) (path : List Nat) :
    path ∈ findFiles lower walk ↔ ∃ d ∈ walk, ∃ n ∈ d.2, (∃ stem, lower n = stem ++ [46, 100, 111, 99]) ∧ InDirectory d.1 n path := by
  simp only [← path_join, findFiles, List.mem_flatMap, List.mem_map, List.mem_filter, List.isSuffixOf_iff_suffix]
  constructor
  · rintro ⟨d, hd, n, ⟨hn, ⟨stem, hs⟩⟩, rfl⟩
    exact ⟨d, hd, n, hn, ⟨stem, hs.symm⟩, rfl⟩
  · rintro ⟨d, hd, n, hn, ⟨stem, hs⟩, rfl⟩
    exact ⟨d, hd, n, ⟨hn, ⟨stem, hs.symm⟩⟩, rfl⟩

/-! ### Examples -/

/-- Two directories with `a.doc`, `b.txt` and `c.doc`; `a.doc` has a title with a newline, `c.doc` is not a document. -/
def csvWalk : List (List Nat × List (List Nat)) := [([46], [[97, 46, 100, 111, 99], [98, 46, 116, 120, 116]]), ([46, 47, 120], [[99, 46, 100, 111, 99]])]

def csvOutcome (n : List Nat) : Outcome := if n = [46, 47, 97, 46, 100, 111, 99] then .told (fun f => if f = [116] then some [72, 10, 73] else none) else .noParser

example : (Csv.main id id csvWalk csvOutcome [116, 44, 97]).1 = ⟨[46, 47, 97, 46, 100, 111, 99, 59, 32, 72, 92, 110, 73, 59, 32, 10], 2, 1⟩ := by decide +kernel

example : CsvValid csvOutcome (findFiles id csvWalk) ∧ ∀ n ∈ findFiles id csvWalk, ∀ e, csvOutcome n ≠ .raises e := by
  constructor
  · intro n hn
    constructor
    · revert n; decide +kernel
    · intro text ht f t hft
      unfold csvOutcome at ht
      split at ht
      · cases ht
        dsimp only at hft
        split at hft
        · cases hft; decide
        · cases hft
      · cases ht
  · intro n _ e
    unfold csvOutcome
    split <;> simp

/-- An empty file between two others. -/
example : (loop [[116]] (fun n => if n = [97] then .raises .nullStream else .told fun _ => some [84]) ([[98]] ++ [97] :: [[99]]) ⟨[], 0, 0⟩).2 = some .nullStream := by
  rw [C200_ends [[116]] (by simp) (fun n => if n = [97] then .raises .nullStream else .told fun _ => some [84]) [[98]] [[99]] [97] .nullStream (by simp) (by simp)]

example : 59 ∉ Csv.printable [97, 46, 100, 111, 99] ∧ cells 59 [97, 59, 32, 84] = [[97], [32, 84]] := by decide +kernel

end Hachoir.Props
