import Verif.Formats.PngData
import Verif.Props.Png
import Verif.Props.Compose

/-!
# C170: the image data of PNG files
-/

namespace Hachoir.Props
open Hachoir Hachoir.Stream Hachoir.Formats Hachoir.Formats.Png Spec _root_.Props

/-! ### Specification -/

/-- The image data of a picture: the contents of its chunks `IDAT`, joined. -/
def pictureData (cs : List PngChunk) : Bytes := (cs.filter fun c => c.tag = [0x49, 0x44, 0x41, 0x54]).flatMap PngChunk.content

/-- There is image data, and none of its chunks is empty. -/
def PictureGood (cs : List PngChunk) : Prop := pictureData cs ≠ [] ∧ ∀ c ∈ cs, c.tag = [0x49, 0x44, 0x41, 0x54] → c.content ≠ []

/-! ### Places -/

/-- Place and content of the chunks `IDAT`. -/
def dataPlaces : Nat → List PngChunk → List (Nat × Bytes)
  | _, [] => []
  | k, c :: cs =>
    if c.tag = [0x49, 0x44, 0x41, 0x54] then (k + 8, c.content) :: dataPlaces (k + (c.content.length + 12)) cs
    else dataPlaces (k + (c.content.length + 12)) cs

theorem data_chunks : ∀ (cs : List PngChunk) (k : Nat),
    (dataChunks (pngPlaces k cs)).map (fun c => (c.content, c.bytes)) = (dataPlaces k cs).map fun p => (8 * p.1, p.2.length)
  | [], _ => rfl
  | c :: cs, k => by
    have ih := data_chunks cs (k + (c.content.length + 12))
    unfold dataChunks at ih ⊢
    rw [pngPlaces, dataPlaces]
    by_cases h : c.tag = [0x49, 0x44, 0x41, 0x54]
    · rw [if_pos h, List.filter_cons_of_pos (by simp [dataTag, h]), List.map_cons, List.map_cons, ih]
    · rw [if_neg h, List.filter_cons_of_neg (by simpa [dataTag] using h), ih]

theorem data_content : ∀ (cs : List PngChunk) (k : Nat), (dataPlaces k cs).flatMap Prod.snd = pictureData cs
  | [], _ => rfl
  | c :: cs, k => by
    have ih := data_content cs (k + (c.content.length + 12))
    unfold pictureData at ih ⊢
    rw [dataPlaces]
    by_cases h : c.tag = [0x49, 0x44, 0x41, 0x54]
    · rw [if_pos h, List.filter_cons_of_pos (by simpa using h), List.flatMap_cons, List.flatMap_cons, ih]
    · rw [if_neg h, List.filter_cons_of_neg (by simpa using h), ih]

theorem data_full : ∀ (cs : List PngChunk) (k : Nat), (∀ c ∈ cs, c.tag = [0x49, 0x44, 0x41, 0x54] → c.content ≠ []) → ∀ p ∈ dataPlaces k cs, p.2 ≠ []
  | [], _, _, _, h => by cases h
  | c :: cs, k, hc, p, h => by
    have ih := data_full cs (k + (c.content.length + 12)) (fun x hx => hc x (List.mem_cons_of_mem _ hx)) p
    rw [dataPlaces] at h
    split at h
    · rename_i ht
      rcases List.mem_cons.1 h with rfl | h
      · exact hc c (List.mem_cons_self ..) ht
      · exact ih h
    · exact ih h

theorem data_there (data : Bytes) : ∀ (cs : List PngChunk) (k : Nat), (∀ c ∈ cs, c.Good) → cs.flatMap PngChunk.bytes <+: data.drop k → ∀ p ∈ dataPlaces k cs, p.2 <+: data.drop p.1
  | [], _, _, _, _, h => by cases h
  | c :: cs, k, hg, hp, p, h => by
    rw [List.flatMap_cons] at hp
    have hc := hg c (List.mem_cons_self ..)
    have hl := png_length c hc
    have hp2 := drop_prefix hp
    rw [hl] at hp2
    have ih := data_there data cs (k + (c.content.length + 12)) (fun x hx => hg x (List.mem_cons_of_mem _ hx)) hp2 p
    rw [dataPlaces] at h
    split at h
    · rcases List.mem_cons.1 h with rfl | h
      · have h1 := prefix_left hp
        have e : c.bytes = (beBytes 4 c.content.length ++ c.tag) ++ (c.content ++ beBytes 4 c.crc) := by simp [PngChunk.bytes]
        rw [e] at h1
        have h2 := prefix_left (drop_prefix h1)
        rw [List.length_append, beBytes_length, hc.1] at h2
        exact h2
      · exact ih h
    · exact ih h

/-! ### Links -/

theorem image_field (ds : List Chunk) (hd : ∀ c ∈ ds, c.bytes ≠ 0) (i : Nat) (c : Chunk) (h : ds[i]? = some c) : imageField ds i = .ok (c.content, 8 * c.bytes) := by
  have hl : i < ds.length := by
    by_contra hn
    rw [List.getElem?_eq_none (by omega)] at h
    cases h
  obtain ⟨f, hf⟩ : ∃ f, ds[0]? = some f := ⟨ds[0], List.getElem?_eq_getElem (by omega)⟩
  rw [imageField, h, hf]
  simp only
  rw [if_neg (by
    rintro (h' | h')
    · exact hd c (List.mem_of_getElem? h) h'
    · exact hd f (List.mem_of_getElem? hf) h')]

theorem image_follow (ds : List Chunk) (hd : ∀ c ∈ ds, c.bytes ≠ 0) : ∀ (n i : Nat), ds.length ≤ i + n →
    imageFollow ds n i = ((ds.drop (i + 1)).map fun c => (c.content, 8 * c.bytes), none)
  | 0, i, h => by
    rw [List.drop_eq_nil_of_le (by omega)]
    rfl
  | n + 1, i, h => by
    rw [imageFollow, imageNext]
    cases hc : ds[i + 1]? with
    | none =>
      rw [List.getElem?_eq_none_iff] at hc
      rw [List.drop_eq_nil_of_le hc]
      rfl
    | some c =>
      simp only
      rw [image_field ds hd (i + 1) c hc]
      simp only
      rw [image_follow ds hd n (i + 1) (by omega)]
      obtain ⟨hl, he⟩ := List.getElem?_eq_some_iff.1 hc
      rw [List.drop_eq_getElem_cons hl, List.map_cons, he]

theorem frag_all (P : Bytes) : ∀ l : List (Nat × Bytes), (∀ p ∈ l, p.2 ≠ []) → (∀ p ∈ l, p.2 <+: P.drop p.1) → fragContent P (l.map fun p => some (p.1, p.2.length)) = l.flatMap Prod.snd
  | [], _, _ => rfl
  | p :: l, hn, h => by
    rw [List.map_cons, fragContent, List.flatMap_cons]
    have h1 := h p (List.mem_cons_self ..)
    have hl := h1.length_le
    rw [List.length_drop] at hl
    have h0 : 0 < p.2.length := List.length_pos_of_ne_nil (hn p (List.mem_cons_self ..))
    rw [if_neg (by simp only; omega), frag_all P l (fun x hx => hn x (List.mem_cons_of_mem _ hx)) (fun x hx => h x (List.mem_cons_of_mem _ hx))]
    simp only
    rw [List.prefix_iff_eq_take.1 h1, List.length_take, List.length_drop, Nat.min_eq_left hl]

theorem image_stream (l : List Chunk) (q : Nat × Bytes) (qs : List (Nat × Bytes)) (h : (dataChunks l).map (fun c => (c.content, c.bytes)) = (q :: qs).map fun p => (8 * p.1, p.2.length))
    (hn : ∀ p ∈ q :: qs, p.2 ≠ []) : imageStream l = FragState.init (8 * q.1, 8 * q.2.length) (qs.map fun p => some (8 * p.1, 8 * p.2.length)) := by
  rw [imageStream]
  generalize dataChunks l = ds at h
  have hd : ∀ c ∈ ds, c.bytes ≠ 0 := by
    intro c hc h0
    have : (c.content, c.bytes) ∈ ds.map fun c => (c.content, c.bytes) := List.mem_map.2 ⟨c, hc, rfl⟩
    rw [h] at this
    obtain ⟨p, hp, e⟩ := List.mem_map.1 this
    simp only [Prod.mk.injEq] at e
    have := List.length_pos_of_ne_nil (hn p hp)
    omega
  cases ds with
  | nil => simp at h
  | cons c ds =>
    rw [image_follow _ hd _ 0 (by simp), image_field _ hd 0 c rfl]
    simp only [List.map_cons, List.cons.injEq, Prod.mk.injEq] at h
    simp only [Nat.zero_add, List.drop_succ_cons, List.drop_zero]
    have e : (ds.map fun c => (c.content, 8 * c.bytes)) = qs.map fun p => (8 * p.1, 8 * p.2.length) := by
      have := congrArg (List.map fun p : Nat × Nat => (p.1, 8 * p.2)) h.2
      rw [List.map_map, List.map_map] at this
      exact this
    rw [e, h.1.1, h.1.2, List.map_map]
    rfl

theorem image_missing (ds : List Chunk) (i : Nat) (e : PyErr) (h : imageField ds i = .error e) : e = .missingField := by
  rw [imageField] at h
  split at h
  · split at h
    · cases h; rfl
    · cases h
  · cases h; rfl

theorem follow_missing (ds : List Chunk) : ∀ (n i j : Nat) (_ : ds.length ≤ i + n) (_ : i < j) (hj : j < ds.length), ds[j].bytes = 0 → (imageFollow ds n i).2 = some .missingField
  | 0, i, j, h, hi, hj, _ => by omega
  | n + 1, i, j, h, hi, hj, e => by
    rw [imageFollow, imageNext, List.getElem?_eq_getElem (show i + 1 < ds.length by omega)]
    simp only
    cases hf : imageField ds (i + 1) with
    | error x => exact congrArg some (image_missing ds _ x hf)
    | ok f =>
      simp only
      have : i + 1 ≠ j := by
        rintro rfl
        rw [imageField, List.getElem?_eq_getElem hj, List.getElem?_eq_getElem (show 0 < ds.length by omega)] at hf
        simp only [e, true_or, if_true] at hf
        cases hf
      exact follow_missing ds n (i + 1) j (by omega) (by omega) hj e

theorem data_empty : ∀ (cs : List PngChunk) (k : Nat) (c : PngChunk), c ∈ cs → c.tag = [0x49, 0x44, 0x41, 0x54] → c.content = [] → ∃ p ∈ dataPlaces k cs, p.2 = []
  | [], _, _, h, _, _ => by cases h
  | d :: cs, k, c, h, ht, he => by
    rw [dataPlaces]
    rcases List.mem_cons.1 h with rfl | h
    · rw [if_pos ht]
      exact ⟨_, List.mem_cons_self .., he⟩
    · obtain ⟨p, hp, e⟩ := data_empty cs (k + (d.content.length + 12)) c h ht he
      split
      · exact ⟨p, List.mem_cons_of_mem _ hp, e⟩
      · exact ⟨p, hp, e⟩

/-! ### The property -/

/-- **C170**: the field `compressed_data` of the first chunk `IDAT` is read as the joined contents of all the chunks `IDAT` of the file, whatever was read before: the right bits
inside, and an error behind the end; the other chunks, which may be between them, are not in it. -/
theorem C170_stream (data : Bytes) (s : InputStream) (hs : stringInputStream data = .ok s) (cs : List PngChunk) (hg : ∀ c ∈ cs, c.Good) (k fuel : Nat) (hf : cs.length < fuel)
    (hp : cs.flatMap PngChunk.bytes <+: data.drop k) (hd : PictureGood cs) :
    ∃ l st, readChunks s fuel (8 * k) (8 * (k + (cs.flatMap PngChunk.bytes).length)) = .ok l ∧ imageStream l = .ok st ∧
      ∀ (hist : List (Nat × Nat)) (a n : Nat), 0 < n →
        (a + n ≤ 8 * (pictureData cs).length →
          readBits (fragView s (8 * data.length) (fragRun s (8 * data.length) st hist)) a n .big = .ok (ofBitsMSB (((bitsMSB (pictureData cs)).drop a).take n))) ∧
        (8 * (pictureData cs).length < a + n → readBits (fragView s (8 * data.length) (fragRun s (8 * data.length) st hist)) a n .big = .error .readStream) := by
  refine ⟨pngPlaces k cs, ?_⟩
  have hchunks := data_chunks cs k
  have hfull := data_full cs k hd.2
  have hthere := data_there data cs k hg hp
  have hcont := data_content cs k
  obtain ⟨q, qs, hq⟩ : ∃ q qs, dataPlaces k cs = q :: qs := by
    cases h : dataPlaces k cs with
    | nil =>
      rw [h] at hcont
      exact absurd hcont.symm hd.1
    | cons q qs => exact ⟨q, qs, rfl⟩
  rw [hq] at hfull hthere hcont
  have hfc := frag_all data (q :: qs) hfull hthere
  rw [List.map_cons, hcont] at hfc
  have hq1 := (hthere q (List.mem_cons_self ..)).length_le
  rw [List.length_drop] at hq1
  have hq0 : 0 < q.2.length := List.length_pos_of_ne_nil (hfull q (List.mem_cons_self ..))
  obtain ⟨st, h1, h2⟩ := C43_fragmented_partial data s hs (q.1, q.2.length) (qs.map fun p => some (p.1, p.2.length)) (by rw [hfc]; exact hd.1) (Or.inl (by simp only; omega))
  rw [hfc] at h2
  refine ⟨st, C99_chunks data s hs cs hg k fuel hf hp, ?_, fun hist a n hn => ⟨fun h => ((h2 hist a n hn).1 h).1, fun h => ((h2 hist a n hn).2 h).1⟩⟩
  rw [hq] at hchunks
  have h3 := image_stream (pngPlaces k cs) q qs hchunks hfull
  rw [h3, ← h1, List.map_map]
  rfl

/-- **C170** (disagreement): a picture with an empty chunk `IDAT`, which the format allows, cannot be read: a field is missing.  (The stream of the code tells so when it is read up to the
empty chunk.) -/
theorem C170_empty (cs : List PngChunk) (k : Nat) (c : PngChunk) (hc : c ∈ cs) (ht : c.tag = [0x49, 0x44, 0x41, 0x54]) (he : c.content = []) :
    imageStream (pngPlaces k cs) = .error .missingField := by
  have h1 := data_chunks cs k
  have h2 : ∃ p ∈ dataPlaces k cs, p.2 = [] := data_empty cs k c hc ht he
  rw [imageStream]
  generalize dataChunks (pngPlaces k cs) = ds at h1
  have h3 : ∃ d ∈ ds, d.bytes = 0 := by
    obtain ⟨p, hp, e⟩ := h2
    have : (8 * p.1, p.2.length) ∈ (dataPlaces k cs).map fun p => (8 * p.1, p.2.length) := List.mem_map.2 ⟨p, hp, rfl⟩
    rw [← h1] at this
    obtain ⟨d, hd, e'⟩ := List.mem_map.1 this
    refine ⟨d, hd, ?_⟩
    simp only [Prod.mk.injEq] at e'
    rw [e'.2, e]
    rfl
  obtain ⟨d, hd, e⟩ := h3
  obtain ⟨j, hj, rfl⟩ := List.mem_iff_getElem.1 hd
  cases hf : imageField ds 0 with
  | error x => exact congrArg Except.error (image_missing ds 0 x hf)
  | ok f =>
    simp only
    have j0 : j ≠ 0 := by
      rintro rfl
      rw [imageField, List.getElem?_eq_getElem hj] at hf
      simp only [e, true_or, if_true] at hf
      cases hf
    rw [follow_missing ds ds.length 0 j (by omega) (by omega) hj e]

/-! ### Example -/

/-- A picture with two chunks of image data and a text between them. -/
def dataExample : List PngChunk := [⟨[0x49, 0x44, 0x41, 0x54], [1, 2, 3], 7⟩, ⟨[0x74, 0x45, 0x58, 0x74], [65, 0, 66], 8⟩, ⟨[0x49, 0x44, 0x41, 0x54], [4], 9⟩]

example : PictureGood dataExample ∧ (∀ c ∈ dataExample, c.Good) ∧ pictureData dataExample = [1, 2, 3, 4] := by
  refine ⟨⟨by decide, by decide⟩, ?_, by decide⟩
  unfold PngChunk.Good
  decide

end Hachoir.Props
