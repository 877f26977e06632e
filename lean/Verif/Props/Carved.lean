import Verif.Subfile.Output
import Verif.Props.OutputStream
import Verif.Props.Grep

/-!
# C203: files that are carved out
-/

namespace Hachoir.Props
open Hachoir Hachoir.Stream Hachoir.Subfile.Output

/-! ## Specification -/

/-- The size of a file that is to be carved out: it is known and not zero, the filter lets the file pass, the file has less than 100 MB, and it is not the whole of what is searched. -/
def Carved (total : Nat) (f : Found) (size : Nat) : Prop :=
  f.contentSize = some size ∧ size ≠ 0 ∧ ¬ (f.offset = 0 ∧ size = total) ∧ size / 8 < 104857600 ∧ f.wanted = true

/-- The files that are to be carved out, with their sizes, in order. -/
inductive CarvedList (total : Nat) : List Found → List (Found × Nat) → Prop where
  | nil : CarvedList total [] []
  | keep (f : Found) (size : Nat) (h : Carved total f size) (fs : List Found) (cs : List (Found × Nat)) (hs : CarvedList total fs cs) : CarvedList total (f :: fs) ((f, size) :: cs)
  | skip (f : Found) (h : ∀ size, ¬ Carved total f size) (fs : List Found) (cs : List (Found × Nat)) (hs : CarvedList total fs cs) : CarvedList total (f :: fs) cs

/-! ## Proofs -/

/-- Of all files found it can be said which are to be carved out. -/
theorem carved_exists (total : Nat) (fs : List Found) : ∃ cs, CarvedList total fs cs := by
  induction fs with
  | nil => exact ⟨[], .nil⟩
  | cons f fs ih =>
    obtain ⟨cs, h⟩ := ih
    by_cases hf : ∃ size, Carved total f size
    · obtain ⟨size, hf⟩ := hf
      exact ⟨_, .keep f size hf fs cs h⟩
    · exact ⟨cs, .skip f (fun size hs => hf ⟨size, hs⟩) fs cs h⟩

theorem process_keep (s : InputStream) (total : Nat) (st : State) (f : Found) (size : Nat) (h : Carved total f size) : processParser s total st f = store s st f size := by
  obtain ⟨h1, h2, h3, h4, h5⟩ := h
  rw [processParser, h1]
  simp only
  rw [if_neg h2, if_neg h3, if_neg (by rw [fileMaxSize]; omega), if_pos h5]

theorem process_skip (s : InputStream) (total : Nat) (st : State) (f : Found) (h : ∀ size, ¬ Carved total f size) : processParser s total st f = st := by
  rw [processParser]
  split
  · rfl
  · rename_i size hc
    by_contra hne
    refine h size ⟨hc, ?_, ?_, ?_, ?_⟩
    · rintro rfl; exact hne (if_pos rfl)
    · intro h3
      by_cases h2 : size = 0
      · exact hne (if_pos h2)
      · exact hne (by rw [if_neg h2, if_pos h3])
    · by_contra h4
      refine hne ?_
      split_ifs with a b c
      · rfl
      · rfl
      · rfl
      · rw [fileMaxSize] at c; omega
      · rfl
    · by_contra h5
      refine hne ?_
      rw [if_neg h5]
      split_ifs <;> rfl

theorem copied_bytes (data : Bytes) (s : InputStream) (hs : stringInputStream data = .ok s) (p size : Nat) (h : p + size / 8 ≤ data.length) :
    copied s (8 * p) size = some ((data.drop p).take (size / 8)) := by
  rw [copied, _root_.Props.C46_copyBytesFrom data s hs OutputStream.init rfl p (size / 8) h]
  rfl

theorem carved_all (s : InputStream) (total : Nat) {fs : List Found} {cs : List (Found × Nat)} (h : CarvedList total fs cs) : ∀ st : State,
    (fs.foldl (processParser s total) st).files = st.files ++ (cs.zipIdx st.fileId).map fun x => (fileName x.2 x.1.1.suffix, copied s x.1.1.offset x.1.2) := by
  induction h with
  | nil => intro st; simp
  | keep f size h fs cs _ ih =>
    intro st
    rw [List.foldl_cons, process_keep s total st f size h, ih, store]
    simp
  | skip f h fs cs _ ih =>
    intro st
    rw [List.foldl_cons, process_skip s total st f h, ih]

/-- **C203** The files written are those to be carved out, in the order in which they are found, with numbers from 1 on, and each has exactly the bytes of the file found: as many as its size, from
where it begins. -/
theorem C203_files (data : Bytes) (s : InputStream) (hs : stringInputStream data = .ok s) (total : Nat) (fs : List Found) (cs : List (Found × Nat)) (h : CarvedList total fs cs)
    (hc : ∀ c ∈ cs, c.1.offset % 8 = 0 ∧ c.1.offset / 8 + c.2 / 8 ≤ data.length) :
    (processAll s total fs).files = (cs.zipIdx 1).map fun x => (fileName x.2 x.1.1.suffix, some ((data.drop (x.1.1.offset / 8)).take (x.1.2 / 8))) := by
  rw [processAll, carved_all s total h start, start, List.nil_append]
  refine List.map_congr_left ?_
  rintro ⟨c, i⟩ hx
  obtain ⟨h1, h2⟩ := hc c (by
    have := List.mem_zipIdx hx
    rw [this.2.2]; exact List.getElem_mem _)
  simp only
  rw [← copied_bytes data s hs (c.1.offset / 8) c.2 h2, show 8 * (c.1.offset / 8) = c.1.offset by omega]

/-! ## Names -/

/-- A suffix: none, or a dot and more. -/
def DotSuffix : Option (List Char) → Prop
  | none => True
  | some l => l = [] ∨ ∃ more, l = '.' :: more

theorem zeros_value (k : Nat) (l : List Char) : Nat.ofDigitChars 10 (List.replicate k '0' ++ l) 0 = Nat.ofDigitChars 10 l 0 := by
  induction k with
  | zero => rfl
  | succ k ih =>
    rw [List.replicate_succ, List.cons_append, Nat.ofDigitChars_cons]
    exact ih

theorem padded_inj {a b : Nat} (h : padded a = padded b) : a = b := by
  have := congrArg (fun l => Nat.ofDigitChars 10 l 0) h
  simp only [padded, zeros_value] at this
  rwa [Nat.ofDigitChars_toDigits (by decide) (by decide), Nat.ofDigitChars_toDigits (by decide) (by decide)] at this

theorem padded_no_dot (n : Nat) : '.' ∉ padded n := by
  intro h
  rw [padded, List.mem_append] at h
  rcases h with h | h
  · exact absurd (List.eq_of_mem_replicate h) (by decide)
  · have := Nat.isDigit_of_mem_toDigits (by decide) (by decide) h
    revert this
    decide

/-- **C203** Files with different numbers have different names, whatever their suffixes, so that no file overwrites another. -/
theorem C203_names (a b : Nat) (x y : Option (List Char)) (hx : DotSuffix x) (hy : DotSuffix y) (h : fileName a x = fileName b y) : a = b ∧ x.getD [] = y.getD [] := by
  rw [fileName, fileName, List.append_assoc, List.append_assoc] at h
  replace h := List.append_cancel_left h
  have cases : ∀ {z : Option (List Char)}, DotSuffix z → z.getD [] = [] ∨ ∃ more, z.getD [] = '.' :: more := by
    intro z hz
    cases z with
    | none => exact .inl rfl
    | some l => exact hz
  rcases cases hx with ex | ⟨mx, ex⟩ <;> rcases cases hy with ey | ⟨my, ey⟩ <;> rw [ex, ey] at h ⊢
  · exact ⟨padded_inj (by simpa using h), rfl⟩
  · exact absurd (show '.' ∈ padded a by rw [List.append_nil] at h; rw [h]; simp) (padded_no_dot a)
  · exact absurd (show '.' ∈ padded b by rw [List.append_nil] at h; rw [← h]; simp) (padded_no_dot b)
  · obtain ⟨h1, h2⟩ := split_dot (padded_no_dot a) (padded_no_dot b) h
    exact ⟨padded_inj h1, by rw [h2]⟩

/-- **C203** No two files written have the same name. -/
theorem C203_distinct (s : InputStream) (total : Nat) (fs : List Found) (hf : ∀ f ∈ fs, DotSuffix f.suffix) :
    ((processAll s total fs).files.map Prod.fst).Nodup := by
  obtain ⟨cs, h⟩ := carved_exists total fs
  have hc : ∀ c ∈ cs, DotSuffix c.1.suffix := by
    induction h with
    | nil => simp
    | keep f size h fs cs _ ih =>
      intro c hm
      rcases List.mem_cons.1 hm with rfl | hm
      exacts [hf _ (by simp), ih (fun g hg => hf g (by simp [hg])) c hm]
    | skip f h fs cs _ ih => exact ih fun g hg => hf g (by simp [hg])
  rw [processAll, carved_all s total h start, start, List.nil_append, List.map_map, List.Nodup, List.pairwise_map, List.pairwise_iff_getElem]
  intro i j hi hj hij e
  simp only [Function.comp, List.getElem_zipIdx] at e
  have := (C203_names _ _ _ _ (hc _ (List.getElem_mem _)) (hc _ (List.getElem_mem _)) e).1
  omega

/-! ## Examples -/

/-- A picture within other bytes, a file of unknown size, and a file without suffix. -/
example : CarvedList 160 [⟨8, some 16, some ['.', 'g', 'i', 'f'], true⟩, ⟨0, none, none, true⟩, ⟨0, some 160, none, true⟩, ⟨32, some 8, none, true⟩]
    [(⟨8, some 16, some ['.', 'g', 'i', 'f'], true⟩, 16), (⟨32, some 8, none, true⟩, 8)] :=
  .keep _ _ (by simp [Carved]) _ _ (.skip _ (by simp [Carved]) _ _ (.skip _ (by simp [Carved]) _ _ (.keep _ _ (by simp [Carved]) _ _ .nil)))

example : fileName 7 (some ['.', 'g', 'i', 'f']) = "file-0007.gif".toList ∧ fileName 12345 none = "file-12345".toList := by decide +kernel

end Hachoir.Props
