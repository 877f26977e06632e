import Verif.Formats.Psd
import Verif.Props.Iptc

/-!
# C150: Photoshop pictures
-/

namespace Hachoir.Props
open Hachoir Hachoir.Stream Hachoir.Field Hachoir.Formats Spec

/-- The bytes of a header (Adobe: 26 bytes). -/
def psdHeader (h : Psd.Header) : Bytes :=
  [0x38, 0x42, 0x50, 0x53] ++ (beBytes 2 h.version ++ (List.replicate 6 0 ++ (beBytes 2 h.channels ++ (beBytes 4 h.width ++ (beBytes 4 h.height ++
    (beBytes 2 h.depth ++ beBytes 2 h.mode))))))

structure PsdHeaderGood (h : Psd.Header) : Prop where
  version : h.version < 65536
  channels : h.channels < 65536
  width : h.width < 2 ^ 32
  height : h.height < 2 ^ 32
  depth : h.depth < 65536
  mode : h.mode < 65536

def psdBlock (b : Bytes) : Bytes := beBytes 4 b.length ++ b

/-- The bytes of a picture. -/
def psdBytes (f : Psd.File) : Bytes :=
  psdHeader f.header ++ (psdBlock f.mode ++ (psdBlock (f.resources.flatMap resourceBytes) ++ (psdBlock f.layers ++ (beBytes 2 f.compression ++ f.pixels))))

structure PsdGood (f : Psd.File) : Prop where
  header : PsdHeaderGood f.header
  mode : f.mode.length < 2 ^ 32
  resources : ∀ r ∈ f.resources, ResourceGood r
  size : (f.resources.flatMap resourceBytes).length < 2 ^ 32
  layers : f.layers.length < 2 ^ 32
  compression : f.compression < 65536

theorem reads_psd_header (h : Psd.Header) (g : PsdHeaderGood h) : Reads Psd.header h (psdHeader h) := by
  refine Reads.bind (reads_fixed .big .eightBit (by decide) 4 _ rfl (by decide)) ?_
  refine Reads.bind (reads_int_be 2 _ (by decide) g.version) ?_
  refine Reads.bind (reads_raw_n 6 _ rfl (by decide)) ?_
  refine Reads.bind (reads_int_be 2 _ (by decide) g.channels) ?_
  refine Reads.bind (reads_int_be 4 _ (by decide) g.width) ?_
  refine Reads.bind (reads_int_be 4 _ (by decide) g.height) ?_
  refine Reads.bind (reads_int_be 2 _ (by decide) g.depth) ?_
  exact Reads.map (f := fun mode => Psd.Header.mk h.version h.channels h.width h.height h.depth mode) (reads_int_be 2 _ (by decide) g.mode)

theorem reads_psd_block (b : Bytes) (h : b.length < 2 ^ 32) : Reads Psd.block b (psdBlock b) :=
  Reads.bind (reads_int_be 4 _ (by decide) h) (reads_raw_or b _ rfl)

/-- What is read of a picture: the data of resources with their filling. -/
def psdRead (f : Psd.File) : Psd.File := { f with resources := f.resources.map resourceRead }

/-- **C150**: header, mode data, all resources, layers, compression and pixels are read as they were written (resources below 65536 bytes,
`C147_large_wrong`). -/
theorem C150_file_partial (f : Psd.File) (g : PsdGood f) (fuel : Nat) (hf : f.resources.length < fuel) :
    ReadsAll (Psd.file fuel) (psdRead f) (psdBytes f) := by
  refine Reads.bind_all (reads_psd_header _ g.header) ?_
  refine Reads.bind_all (reads_psd_block _ g.mode) ?_
  have hc : Reads (Psd.config fuel) (f.resources.map resourceRead) (psdBlock (f.resources.flatMap resourceBytes)) :=
    Reads.bind (reads_int_be 4 _ (by decide) g.size) ((reads_resources f.resources fuel hf g.resources).within _ rfl)
  refine Reads.bind_all hc ?_
  refine Reads.bind_all (reads_psd_block _ g.layers) ?_
  refine Reads.bind_all (reads_int_be 2 _ (by decide) g.compression) ?_
  have ht : ReadsAll Psd.tail f.pixels f.pixels := ReadsAll.left (f := fun n => Cab.rawOr n) (reads_raw_or f.pixels _ rfl).all
  exact ReadsAll.map ht fun p => Psd.File.mk f.header f.mode (f.resources.map resourceRead) f.layers f.compression p

/-- **C150**: the size told is that of the picture, up to 20000 pixels, and the bits are those of all channels together. -/
theorem C150_told (f : Psd.File) (h1 : 1 ≤ f.header.width ∧ f.header.width ≤ 20000) (h2 : 1 ≤ f.header.height ∧ f.header.height ≤ 20000)
    (h3 : 1 ≤ f.header.depth) (h4 : 1 ≤ f.header.channels) (h5 : f.header.depth * f.header.channels ≤ 256) :
    (Psd.tell f).width = some f.header.width ∧ (Psd.tell f).height = some f.header.height ∧
      (Psd.tell f).bits = some (f.header.depth * f.header.channels) := by
  refine ⟨if_pos h1, if_pos h2, if_pos ⟨Nat.mul_pos h3 h4, h5⟩⟩

/-- Violation: the sizes up to 30000 pixels that the format allows are not told beyond 20000. -/
theorem C150_large (f : Psd.File) (h : 20000 < f.header.width) : (Psd.tell f).width = none := if_neg (by omega)

/-- **C150**: the compression is told by its name, or as a number. -/
theorem C150_compression (f : Psd.File) :
    (Psd.tell f).compression = match f.compression with | 0 => "Raw data" | 1 => "RLE" | n => toString n := by
  rw [Psd.tell]
  simp only
  generalize f.compression = n
  match n with
  | 0 => rfl
  | 1 => rfl
  | n + 2 => simp [Psd.display, Psd.compressions, List.lookup]

/-- **C150**: the modes have the names that the format gives them; other modes are told as numbers. -/
theorem C150_modes (f : Psd.File) :
    (Psd.tell f).format = match f.header.mode with
      | 0 => "Bitmap" | 1 => "Grayscale" | 2 => "Indexed" | 3 => "RGB color" | 4 => "CMYK color" | 7 => "Multichannel" | 8 => "Duotone"
      | 9 => "Lab Color" | n => toString n := by
  rw [Psd.tell]
  simp only
  generalize f.header.mode = n
  by_cases h : n < 10
  · have : ∀ n < 10, Psd.display Psd.modes n = (match n with
      | 0 => "Bitmap" | 1 => "Grayscale" | 2 => "Indexed" | 3 => "RGB color" | 4 => "CMYK color" | 7 => "Multichannel" | 8 => "Duotone"
      | 9 => "Lab Color" | n => toString n) := by decide +kernel
    exact this n h
  · obtain ⟨m, rfl⟩ : ∃ m, n = m + 10 := ⟨n - 10, by omega⟩
    simp [Psd.display, Psd.modes, List.lookup]

/-- **C150**: files are accepted exactly if they begin with the signature. -/
theorem C150_valid (data : Bytes) (s : InputStream) (hs : stringInputStream data = .ok s) (b : Bool) (h : Psd.valid s = .ok b) :
    b = true ↔ [0x38, 0x42, 0x50, 0x53] <+: data := by
  rw [Psd.valid] at h
  have h4 := _root_.Props.C04_readBytes data s hs 0 4
  rw [show ((8 * 0 : Nat) : Int) = 0 from rfl] at h4
  rw [h4] at h
  split at h
  · rename_i hl
    simp only [bind, Except.bind, pure, Except.pure, Except.ok.injEq] at h
    subst h
    simp only [List.drop_zero, beq_iff_eq]
    constructor
    · intro e; rw [← e]; exact List.take_prefix 4 data
    · rintro ⟨t, rfl⟩; rfl
  · cases h

/-- A picture of 3 channels with one resource. -/
def samplePsd : Psd.File := ⟨⟨1, 3, 300, 200, 8, 3⟩, [], [⟨0x0404, [97], [1, 2, 3]⟩], [7, 7], 1, [5, 6, 7]⟩

theorem sample_psd_good : PsdGood samplePsd :=
  ⟨⟨by decide, by decide, by decide, by decide, by decide, by decide⟩, by decide, by
    intro r hr; simp [samplePsd] at hr; subst hr; exact ⟨by decide, by decide, by decide⟩, by decide, by decide, by decide⟩

example : ReadsAll (Psd.file 2) (psdRead samplePsd) (psdBytes samplePsd) ∧ (psdRead samplePsd).resources = [⟨0x0404, [97], [1, 2, 3, 0]⟩] ∧
    (Psd.tell samplePsd).bits = some 24 :=
  ⟨C150_file_partial _ sample_psd_good 2 (by decide), rfl, rfl⟩

example : ∃ s, stringInputStream (psdBytes samplePsd) = .ok s ∧ Psd.valid s = .ok true := ⟨_, rfl, by decide +kernel⟩

end Hachoir.Props
