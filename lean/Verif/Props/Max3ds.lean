import Verif.Formats.Max3ds
import Verif.Props.Arj

/-!
# 3D Studio files
-/

namespace Hachoir.Props
open Hachoir Hachoir.Stream Hachoir.Field Hachoir.Formats Spec
section
open Max3ds

/-- A chunk is its type, its size and its content. -/
def maxFrame (type : Nat) (b : Bytes) : Bytes := leBytes 2 type ++ (leBytes 4 (6 + b.length) ++ b)

def numbersLE (n : Nat) (l : List Nat) : Bytes := l.flatMap (leBytes n)

mutual
def maxBytes : Chunk → Bytes
  | .empty t => maxFrame t []
  | .group t cs => maxFrame t (maxList cs)
  | .object name cs => maxFrame 0x4000 (name ++ [0] ++ maxList cs)
  | .polygons ps cs => maxFrame 0x4120 (leBytes 2 ps.length ++ (ps.flatMap (numbersLE 2) ++ maxList cs))
  | .name t b => maxFrame t (b ++ [0])
  | .color rgb => maxFrame 0x0011 (numbersLE 1 rgb)
  | .version n => maxFrame 0x0002 (leBytes 4 n)
  | .vertices vs => maxFrame 0x4110 (leBytes 2 vs.length ++ vs.flatMap (numbersLE 4))
  | .maps vs => maxFrame 0x4140 (leBytes 2 vs.length ++ vs.flatMap (numbersLE 4))
  | .raw t b => maxFrame t b
def maxList : List Chunk → Bytes
  | [] => []
  | c :: cs => maxBytes c ++ maxList cs
end

/-- Chunks of other chunks, as the documents of 3D Studio tell. -/
inductive MaxGroup : Nat → Prop where
  | main : MaxGroup 0x4D4D
  | mesh : MaxGroup 0x4100
  | editor : MaxGroup 0x3D3D
  | material : MaxGroup 0xAFFF
  | texture : MaxGroup 0xA200
  | ambient : MaxGroup 0xA010
  | diffuse : MaxGroup 0xA020
  | specular : MaxGroup 0xA030
  | keyframes : MaxGroup 0xB000
  | object : MaxGroup 0xB002
  | lightTarget : MaxGroup 0xB006
  | spot : MaxGroup 0xB007

/-- Types whose content is known and not only chunks. -/
def maxKnown : List Nat := [0xA000, 0xA300, 0x4000, 0x0011, 0x0002, 0x4110, 0x4120, 0x4140]

def Tuple (k n : Nat) (l : List Nat) : Prop := l.length = k ∧ ∀ x ∈ l, x < 256 ^ n

mutual
def MaxGood : Chunk → Prop
  | .empty t => t < 65536
  | .group t cs => MaxGroup t ∧ cs ≠ [] ∧ MaxsGood cs ∧ 6 + (maxList cs).length < 2 ^ 32
  | .object name cs => (∀ x ∈ name, x ≠ 0) ∧ MaxsGood cs ∧ 6 + (name ++ [0] ++ maxList cs).length < 2 ^ 32
  | .polygons ps cs => ps.length < 65536 ∧ (∀ p ∈ ps, Tuple 4 2 p) ∧ MaxsGood cs ∧ 6 + (leBytes 2 ps.length ++ (ps.flatMap (numbersLE 2) ++ maxList cs)).length < 2 ^ 32
  | .name t b => (t = 0xA000 ∨ t = 0xA300) ∧ (∀ x ∈ b, x ≠ 0) ∧ 6 + (b ++ [0]).length < 2 ^ 32
  | .color rgb => Tuple 3 1 rgb
  | .version n => n < 2 ^ 32
  | .vertices vs => vs.length < 65536 ∧ ∀ p ∈ vs, Tuple 3 4 p
  | .maps vs => vs.length < 65536 ∧ ∀ p ∈ vs, Tuple 2 4 p
  | .raw t b => t < 65536 ∧ ¬MaxGroup t ∧ t ∉ maxKnown ∧ b ≠ [] ∧ 6 + b.length < 2 ^ 32
def MaxsGood : List Chunk → Prop
  | [] => True
  | c :: cs => MaxGood c ∧ MaxsGood cs
end

mutual
/-- Enough rounds. -/
def maxNeed : Chunk → Nat
  | .group _ cs => 1 + maxNeeds cs
  | .object _ cs => 1 + maxNeeds cs
  | .polygons _ cs => 1 + maxNeeds cs
  | _ => 1
def maxNeeds : List Chunk → Nat
  | [] => 1
  | c :: cs => maxNeed c + maxNeeds cs
end

theorem max_flat : ∀ (cs : List Chunk), maxList cs = cs.flatMap maxBytes
  | [] => by rw [maxList]; rfl
  | c :: cs => by rw [maxList, max_flat cs, List.flatMap_cons]

theorem max_bytes_ne (c : Chunk) : maxBytes c ≠ [] := by
  have h : ∀ t b, maxFrame t b ≠ [] := fun t b h => by simpa [maxFrame, leBytes_length] using congrArg List.length h
  cases c <;> rw [maxBytes] <;> exact h _ _

theorem MaxsGood.mem : ∀ {cs : List Chunk}, MaxsGood cs → ∀ c ∈ cs, MaxGood c
  | c :: cs, h, x, hx => by
    rw [MaxsGood] at h
    rcases List.mem_cons.1 hx with rfl | hx
    · exact h.1
    · exact MaxsGood.mem h.2 x hx

theorem maxNeed_pos (c : Chunk) : 1 ≤ maxNeed c := by cases c <;> rw [maxNeed] <;> first | omega | (intros; contradiction)

theorem max_needs : ∀ (cs : List Chunk), cs.length < maxNeeds cs ∧ ∀ c ∈ cs, maxNeed c < maxNeeds cs
  | [] => by rw [maxNeeds]; simp
  | c :: cs => by
    obtain ⟨h1, h2⟩ := max_needs cs
    have := maxNeed_pos c
    rw [maxNeeds]
    refine ⟨by rw [List.length_cons]; omega, fun x hx => ?_⟩
    rcases List.mem_cons.1 hx with rfl | hx
    · omega
    · have := h2 x hx; omega

theorem MaxGroup.mem {t : Nat} : MaxGroup t ↔ t ∈ subChunks := by
  constructor
  · intro h; cases h <;> decide
  · intro h
    simp only [subChunks, List.mem_cons, List.not_mem_nil, or_false] at h
    rcases h with rfl | rfl | rfl | rfl | rfl | rfl | rfl | rfl | rfl | rfl | rfl | rfl <;> constructor

theorem reads_numbersLE (n k : Nat) (hn : 0 < n) (l : List Nat) (h : Tuple k n l) : Reads (Rd.times (Rd.int n .little) k) l (numbersLE n l) :=
  reads_times_n _ (leBytes n) l k h.1.symm fun x hx => reads_int_le n x hn (h.2 x hx)

/-- A frame around any content. -/
theorem reads_max_frame (fuel t : Nat) (ht : t < 65536) (b : Bytes) (hb : b ≠ []) (hl : 6 + b.length < 2 ^ 32) (c : Chunk)
    (h : ReadsAll (content (chunk fuel) fuel t b.length) c b) : Reads (chunk (fuel + 1)) c (maxFrame t b) := by
  have := List.length_pos_iff.2 hb
  rw [chunk]
  refine Reads.bind (reads_int_le 2 t (by omega) (by omega)) ?_
  refine Reads.bind (reads_int_le 4 _ (by omega) (by omega)) ?_
  have e : 6 + b.length - 6 = b.length := by omega
  rw [if_neg (by omega), if_neg (by omega), e]
  exact h.within _ rfl

theorem reads_max_while (fuel : Nat) (cs : List Chunk) (hf : maxNeeds cs ≤ fuel) (h : ∀ c ∈ cs, Reads (chunk fuel) c (maxBytes c)) :
    ReadsAll (chunksOf (chunk fuel) fuel) cs (maxList cs) := by
  rw [max_flat]
  exact reads_while _ maxBytes cs fuel (by have := (max_needs cs).1; omega) fun c hc => ⟨h c hc, max_bytes_ne c⟩

theorem numbersLE_length (n : Nat) : ∀ (l : List Nat), (numbersLE n l).length = n * l.length
  | [] => rfl
  | x :: l => by
    have := numbersLE_length n l
    simp only [numbersLE] at this ⊢
    rw [List.flatMap_cons, List.length_append, leBytes_length, this, List.length_cons, Nat.mul_add]
    omega

theorem tuples_length (n k : Nat) : ∀ (l : List (List Nat)), (∀ p ∈ l, p.length = k) → (l.flatMap (numbersLE n)).length = n * k * l.length
  | [], _ => rfl
  | p :: l, h => by
    rw [List.flatMap_cons, List.length_append, numbersLE_length, tuples_length n k l fun q hq => h q (List.mem_cons_of_mem _ hq), h p List.mem_cons_self,
      List.length_cons, Nat.mul_add]
    omega

mutual
theorem reads_max : ∀ (c : Chunk) (fuel : Nat), maxNeed c ≤ fuel → MaxGood c → Reads (chunk fuel) c (maxBytes c)
  | .empty t, 0, hf, _ => by rw [maxNeed] at hf; omega; all_goals (intros; contradiction)
  | .empty t, fuel + 1, _, g => by
    rw [MaxGood] at g
    rw [maxBytes, chunk, maxFrame]
    refine Reads.bind (reads_int_le 2 t (by omega) (by omega)) ?_
    refine Reads.bind (reads_int_le 4 _ (by omega) (by simp)) ?_
    rw [if_pos (by rfl)]
    exact reads_pure _
  | .group t cs, 0, hf, _ => by rw [maxNeed] at hf; omega
  | .group t cs, fuel + 1, hf, g => by
    rw [MaxGood] at g
    rw [maxNeed] at hf
    obtain ⟨ht, hne, gs, hl⟩ := g
    rw [maxBytes]
    have hb : maxList cs ≠ [] := by
      obtain ⟨c, l, rfl⟩ := List.exists_cons_of_ne_nil hne
      rw [maxList]
      exact fun h => max_bytes_ne c (List.append_eq_nil_iff.1 h).1
    refine reads_max_frame fuel t (by cases ht <;> decide) _ hb hl _ ?_
    rw [content, if_pos (MaxGroup.mem.1 ht)]
    exact (reads_max_while fuel cs (by omega) (reads_maxs cs fuel (by omega) gs)).map (Chunk.group t)
  | .object name cs, 0, hf, _ => by rw [maxNeed] at hf; omega
  | .object name cs, fuel + 1, hf, g => by
    rw [MaxGood] at g
    rw [maxNeed] at hf
    obtain ⟨hn, gs, hl⟩ := g
    rw [maxBytes]
    refine reads_max_frame fuel 0x4000 (by decide) _ (by simp) hl _ ?_
    rw [content, if_neg (by decide), if_neg (by decide), if_pos rfl]
    exact Reads.bind_all (reads_cstring .little (by decide) .eightBit (.inl rfl) name hn)
      ((reads_max_while fuel cs (by omega) (reads_maxs cs fuel (by omega) gs)).map (Chunk.object name))
  | .polygons ps cs, 0, hf, _ => by rw [maxNeed] at hf; omega
  | .polygons ps cs, fuel + 1, hf, g => by
    rw [MaxGood] at g
    rw [maxNeed] at hf
    obtain ⟨hn, hp, gs, hl⟩ := g
    rw [maxBytes]
    refine reads_max_frame fuel 0x4120 (by decide) _ (by simp [leBytes]) hl _ ?_
    rw [content, if_neg (by decide), if_neg (by decide), if_neg (by decide), if_neg (by decide), if_neg (by decide), if_neg (by decide), if_pos rfl]
    refine Reads.bind_all (reads_int_le 2 _ (by omega) (by omega)) ?_
    refine Reads.bind_all (reads_times_n _ (numbersLE 2) ps _ rfl fun p h => reads_numbersLE 2 4 (by omega) p (hp p h)) ?_
    exact (reads_max_while fuel cs (by omega) (reads_maxs cs fuel (by omega) gs)).map (Chunk.polygons ps)
  | .name t b, 0, hf, _ => by rw [maxNeed] at hf; omega; all_goals (intros; contradiction)
  | .name t b, fuel + 1, _, g => by
    rw [MaxGood] at g
    obtain ⟨ht, hb, hl⟩ := g
    rw [maxBytes]
    refine reads_max_frame fuel t (by omega) _ (by simp) hl _ ?_
    rw [content, if_neg (by rcases ht with rfl | rfl <;> decide), if_pos ht]
    exact (Reads.map (f := Chunk.name t) (reads_cstring .little (by decide) .eightBit (.inl rfl) b hb)).all
  | .color rgb, 0, hf, _ => by rw [maxNeed] at hf; omega; all_goals (intros; contradiction)
  | .color rgb, fuel + 1, _, g => by
    rw [MaxGood] at g
    have hl := numbersLE_length 1 rgb
    rw [g.1] at hl
    rw [maxBytes]
    refine reads_max_frame fuel 0x0011 (by decide) _ (List.ne_nil_of_length_pos (by omega)) (by omega) _ ?_
    rw [content, if_neg (by decide), if_neg (by decide), if_neg (by decide), if_pos rfl]
    exact (Reads.map (f := Chunk.color) (reads_numbersLE 1 3 (by omega) rgb g)).all
  | .version n, 0, hf, _ => by rw [maxNeed] at hf; omega; all_goals (intros; contradiction)
  | .version n, fuel + 1, _, g => by
    rw [MaxGood] at g
    rw [maxBytes]
    refine reads_max_frame fuel 0x0002 (by decide) _ (by simp [leBytes]) (by rw [leBytes_length]; omega) _ ?_
    rw [content, if_neg (by decide), if_neg (by decide), if_neg (by decide), if_neg (by decide), if_pos rfl]
    exact (Reads.map (f := Chunk.version) (reads_int_le 4 n (by omega) (by omega))).all
  | .vertices vs, 0, hf, _ => by rw [maxNeed] at hf; omega; all_goals (intros; contradiction)
  | .vertices vs, fuel + 1, _, g => by
    rw [MaxGood] at g
    obtain ⟨hn, hp⟩ := g
    have hl := tuples_length 4 3 vs fun p h => (hp p h).1
    rw [maxBytes]
    refine reads_max_frame fuel 0x4110 (by decide) _ (by simp [leBytes]) (by rw [List.length_append, leBytes_length]; omega) _ ?_
    rw [content, if_neg (by decide), if_neg (by decide), if_neg (by decide), if_neg (by decide), if_neg (by decide), if_pos rfl]
    refine Reads.all (Reads.bind (reads_int_le 2 _ (by omega) (by omega)) ?_)
    exact Reads.map (f := Chunk.vertices) (reads_times_n _ (numbersLE 4) vs _ rfl fun p h => reads_numbersLE 4 3 (by omega) p (hp p h))
  | .maps vs, 0, hf, _ => by rw [maxNeed] at hf; omega; all_goals (intros; contradiction)
  | .maps vs, fuel + 1, _, g => by
    rw [MaxGood] at g
    obtain ⟨hn, hp⟩ := g
    have hl := tuples_length 4 2 vs fun p h => (hp p h).1
    rw [maxBytes]
    refine reads_max_frame fuel 0x4140 (by decide) _ (by simp [leBytes]) (by rw [List.length_append, leBytes_length]; omega) _ ?_
    rw [content, if_neg (by decide), if_neg (by decide), if_neg (by decide), if_neg (by decide), if_neg (by decide), if_neg (by decide), if_neg (by decide), if_pos rfl]
    refine Reads.all (Reads.bind (reads_int_le 2 _ (by omega) (by omega)) ?_)
    exact Reads.map (f := Chunk.maps) (reads_times_n _ (numbersLE 4) vs _ rfl fun p h => reads_numbersLE 4 2 (by omega) p (hp p h))
  | .raw t b, 0, hf, _ => by rw [maxNeed] at hf; omega; all_goals (intros; contradiction)
  | .raw t b, fuel + 1, _, g => by
    rw [MaxGood] at g
    obtain ⟨ht, hg, hk, hb, hl⟩ := g
    rw [maxBytes]
    refine reads_max_frame fuel t ht b hb hl _ ?_
    simp only [maxKnown, List.mem_cons, List.not_mem_nil, or_false, not_or] at hk
    obtain ⟨k1, k2, k3, k4, k5, k6, k7, k8⟩ := hk
    rw [content, if_neg (fun h => hg (MaxGroup.mem.2 h)), if_neg (by omega), if_neg k3, if_neg k4, if_neg k5, if_neg k6, if_neg k7, if_neg k8]
    exact (Reads.map (f := Chunk.raw t) (reads_raw b hb)).all
theorem reads_maxs : ∀ (cs : List Chunk) (fuel : Nat), maxNeeds cs ≤ fuel → MaxsGood cs → ∀ c ∈ cs, Reads (chunk fuel) c (maxBytes c)
  | [], _, _, _, _, h => by simp at h
  | c :: cs, fuel, hf, g, x, hx => by
    rw [MaxsGood] at g
    rw [maxNeeds] at hf
    have := maxNeed_pos c
    rcases List.mem_cons.1 hx with h | h
    · rw [h]; exact reads_max c fuel (by omega) g.1
    · exact reads_maxs cs fuel (by omega) g.2 x h
end

/-- **C142**: all files are read as they were written, however deep their chunks are nested. -/
theorem C142_file (cs : List Chunk) (g : MaxsGood cs) (fuel : Nat) (hf : maxNeeds cs ≤ fuel) (s : InputStream) (hs : stringInputStream (cs.flatMap maxBytes) = .ok s) :
    file fuel s (8 * (cs.flatMap maxBytes).length) 0 = .ok (cs, 8 * (cs.flatMap maxBytes).length) := by
  have h := reads_max_while fuel cs hf (reads_maxs cs fuel hf g)
  rw [max_flat] at h
  have := h (cs.flatMap maxBytes) s hs 0 (by simp)
  rw [Nat.zero_add] at this
  exact this

/-- **C142**: chunks are read wherever they are. -/
theorem C142_chunk (c : Chunk) (g : MaxGood c) (fuel : Nat) (hf : maxNeed c ≤ fuel) : Reads (chunk fuel) c (maxBytes c) := reads_max c fuel hf g

/-- **C142**: accepted are files whose first chunk is a main chunk with version 2 or 3. -/
theorem C142_valid (cs : List Chunk) : valid cs = true ↔ ∃ inner rest, cs = .group 0x4D4D inner :: rest ∧ (versionOf inner = some 2 ∨ versionOf inner = some 3) := by
  constructor
  · intro h
    unfold valid at h
    split at h
    · rw [Bool.or_eq_true, beq_iff_eq, beq_iff_eq] at h
      exact ⟨_, _, rfl, h⟩
    · cases h
  · rintro ⟨inner, rest, rfl, h⟩
    rw [valid, Bool.or_eq_true, beq_iff_eq, beq_iff_eq]
    exact h

/-- A file with a material and an object with a triangle. -/
example : MaxsGood [.group 0x4D4D [.version 3, .group 0x3D3D [.group 0xAFFF [.name 0xA000 [0x61], .group 0xA010 [.color [255, 0, 0]]],
    .object [0x62] [.group 0x4100 [.vertices [[0, 0, 0], [1, 0, 0], [0, 1, 0]], .polygons [[0, 1, 2, 7]] [.raw 0x4130 [0x61, 0, 1, 0, 0, 0]]]]]]] := by
  simp only [MaxsGood, MaxGood, and_true]
  refine ⟨.main, by simp, ⟨by norm_num, .editor, by simp, ⟨⟨.material, by simp, ⟨⟨.inl trivial, by simp, by simp⟩, .ambient, by simp, ?_, by simp [maxList, maxBytes, maxFrame, numbersLE, leBytes_length]⟩, ?_⟩, ?_⟩, ?_⟩, ?_⟩
  all_goals simp [maxList, maxBytes, maxFrame, numbersLE, leBytes_length, Tuple, maxKnown]
  exact ⟨.mesh, fun h => by cases h⟩

end
end Hachoir.Props
