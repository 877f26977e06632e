import Verif.Wx.FileCache

/-!
# C182: the bytes shown in the window
-/

namespace Hachoir.Props
open Hachoir Hachoir.Wx

/-! ### Proofs -/

/-- Every chunk remembered is one of the file. -/
def CacheGood (size : Nat) (c : FileCache) : Prop := ∀ e ∈ c.cached, e.2 = (c.file.drop e.1).take size

theorem chunk_good (size start : Nat) (c : FileCache) (h : CacheGood size c) :
    (getChunk size start c).1 = (c.file.drop start).take size ∧ CacheGood size (getChunk size start c).2 ∧ (getChunk size start c).2.file = c.file ∧ (getChunk size start c).2.pos = c.pos := by
  unfold getChunk
  cases hl : c.cached.lookup start with
  | some b =>
    have hm : (start, b) ∈ c.cached := by
      have : ∀ l : List (Nat × Bytes), l.lookup start = some b → (start, b) ∈ l := by
        intro l
        induction l with
        | nil => intro h; cases h
        | cons x l ih =>
          intro h
          obtain ⟨k, v⟩ := x
          rw [List.lookup_cons] at h
          by_cases hk : start = k
          · subst hk
            simp at h
            subst h
            exact List.mem_cons_self ..
          · rw [beq_eq_false_iff_ne.mpr hk] at h
            exact List.mem_cons_of_mem _ (ih h)
      exact this _ hl
    have hb := h _ hm
    simp only at hb
    refine ⟨hb, fun e he => ?_, rfl, rfl⟩
    rcases List.mem_cons.mp he with rfl | he
    · exact hb
    · exact h e (List.mem_filter.mp he).1
  | none =>
    refine ⟨rfl, fun e he => ?_, rfl, rfl⟩
    rcases List.mem_cons.mp (List.mem_of_mem_take he) with rfl | he
    · rfl
    · exact h e he

theorem chunks_good (size : Nat) : ∀ (is : List Nat) (c : FileCache), CacheGood size c →
    (getChunks size is c).1 = is.map (fun i => (c.file.drop (i * size)).take size) ∧ CacheGood size (getChunks size is c).2 ∧ (getChunks size is c).2.file = c.file ∧ (getChunks size is c).2.pos = c.pos
  | [], c, h => ⟨rfl, h, rfl, rfl⟩
  | i :: is, c, h => by
    obtain ⟨h1, h2, h3, h4⟩ := chunk_good size (i * size) c h
    obtain ⟨k1, k2, k3, k4⟩ := chunks_good size is _ h2
    rw [h3] at k1 k3
    rw [h4] at k4
    refine ⟨?_, k2, k3, k4⟩
    rw [List.map_cons, ← k1, ← h1]
    rfl

/-- The chunks of the file from the `i`-th. -/
def fileChunks (data : Bytes) (size i n : Nat) : List Bytes := (List.range' i n).map fun i => (data.drop (i * size)).take size

theorem chunks_succ (data : Bytes) (size i n : Nat) : fileChunks data size i (n + 1) = (data.drop (i * size)).take size :: fileChunks data size (i + 1) n := by
  simp [fileChunks, List.range'_succ]

theorem take_more (data : Bytes) (a n m : Nat) : (data.drop a).take n ++ (data.drop (a + n)).take m = (data.drop a).take (n + m) := by
  rw [List.take_add, List.drop_drop]

theorem chunks_flatten (data : Bytes) (size : Nat) : ∀ (n i : Nat), (fileChunks data size i n).flatten = (data.drop (i * size)).take (n * size)
  | 0, i => by simp [fileChunks]
  | n + 1, i => by
    rw [chunks_succ, List.flatten_cons, chunks_flatten data size n (i + 1), Nat.succ_mul i size, take_more, Nat.succ_mul, Nat.add_comm size]

theorem cut_last (data : Bytes) (size k : Nat) (hk : k ≤ size) : ∀ (n i : Nat), ∃ x r, cutLast k (fileChunks data size i (n + 1)) = .ok (x :: r) ∧
    (n = 0 → x = (data.drop (i * size)).take k ∧ r = []) ∧ (0 < n → x = (data.drop (i * size)).take size ∧ r.flatten = (data.drop ((i + 1) * size)).take ((n - 1) * size + k))
  | 0, i => by
    refine ⟨_, [], by rw [chunks_succ]; rfl, fun _ => ⟨?_, rfl⟩, fun h => absurd h (by omega)⟩
    rw [List.take_take, Nat.min_eq_left hk]
  | n + 1, i => by
    obtain ⟨x, r, h1, h2, h3⟩ := cut_last data size k hk n (i + 1)
    refine ⟨(data.drop (i * size)).take size, x :: r, ?_, fun h => absurd h (by omega), fun _ => ⟨rfl, ?_⟩⟩
    · rw [chunks_succ, chunks_succ, cutLast, ← chunks_succ, h1]
      simp
    · rw [List.flatten_cons]
      by_cases hn : n = 0
      · obtain ⟨rfl, rfl⟩ := h2 hn
        subst hn
        simp
      · obtain ⟨rfl, hr⟩ := h3 (by omega)
        obtain ⟨m, rfl⟩ : ∃ m, n = m + 1 := ⟨n - 1, by omega⟩
        rw [hr, Nat.succ_mul (i + 1), take_more]
        congr 1
        simp only [Nat.add_sub_cancel, Nat.succ_mul]
        omega

/-- What is left when the first of these pieces loses its beginning. -/
theorem first_drop (data : Bytes) (size a k m n : Nat) (x : Bytes) (hx : x = (data.drop a).take n) (hk : k ≤ size) (rest : Bytes) (hr : (n = size ∧ rest = (data.drop (a + size)).take m) ∨ (rest = [] ∧ m = 0)) :
    x.drop k ++ rest = (data.drop (a + k)).take (n + m - k) := by
  subst hx
  rcases hr with ⟨rfl, rfl⟩ | ⟨rfl, rfl⟩
  · have h1 : ((data.drop a).take n).drop k = (data.drop (a + k)).take (n - k) := by rw [List.drop_take, List.drop_drop]
    rw [h1, show a + n = (a + k) + (n - k) by omega, take_more]
    congr 1
    omega
  · rw [List.append_nil, List.drop_take, List.drop_drop, Nat.add_zero]

theorem ceil_div (e size : Nat) (h : 0 < size) : (e + size - 1) / size = if e % size = 0 then e / size else e / size + 1 := by
  have hm := Nat.mod_lt e h
  have hd := Nat.div_add_mod e size
  split
  · next h0 =>
    have : e + size - 1 = size * (e / size) + (size - 1) := by omega
    rw [this, Nat.mul_add_div h, Nat.div_eq_of_lt (a := size - 1) (by omega), Nat.add_zero]
  · have : e + size - 1 = size * (e / size + 1) + (e % size - 1) := by
      rw [Nat.mul_add]
      omega
    rw [this, Nat.mul_add_div h, Nat.div_eq_of_lt (a := e % size - 1) (by omega), Nat.add_zero]

theorem get_slice (size s e : Nat) (c : FileCache) (hs : 0 < size) (h : CacheGood size c) (hse : s ≤ e) : (get size s e c).1 = .ok ((c.file.drop s).take (e - s)) := by
  have hc := (chunks_good size (List.range' (s / size) ((e + size - 1) / size - s / size)) c h).1
  show cut (s % size) (e % size) (getChunks size _ c).1 = _
  rw [hc]
  show cut (s % size) (e % size) (fileChunks c.file size (s / size) ((e + size - 1) / size - s / size)) = _
  have hds := Nat.div_add_mod s size
  have hde := Nat.div_add_mod e size
  have hms := Nat.mod_lt s hs
  have hme := Nat.mod_lt e hs
  have hle := Nat.div_le_div_right (c := size) hse
  rw [ceil_div e size hs]
  generalize hS : s / size = S at *
  generalize hE : e / size = E at *
  generalize hp : s % size = p at *
  generalize hq : e % size = q at *
  have hSs : S * size + p = s := by rw [Nat.mul_comm]; exact hds
  have hEe : E * size + q = e := by rw [Nat.mul_comm]; exact hde
  unfold cut
  by_cases hq0 : q = 0
  · subst hq0
    simp only [if_true]
    by_cases hp0 : p = 0
    · subst hp0
      simp only [if_true, chunks_flatten, Nat.sub_mul]
      rw [← hSs, ← hEe]
      rfl
    · have hlt : S < E := by
        by_cases hlt : S < E
        · exact hlt
        · have : S = E := by omega
          subst this
          omega
      obtain ⟨n, hn⟩ : ∃ n, E - S = n + 1 := ⟨E - S - 1, by omega⟩
      simp only [if_neg hp0, hn, chunks_succ, cutFirst, List.flatten_cons, chunks_flatten]
      rw [first_drop c.file size (S * size) p (n * size) size _ rfl (by omega) _ (.inl ⟨rfl, by rw [Nat.succ_mul]⟩), hSs]
      congr 2
      have : E * size = S * size + (size + n * size) := by
        rw [show E = S + (n + 1) by omega, Nat.add_mul, Nat.succ_mul]
        omega
      omega
  · simp only [if_neg hq0]
    obtain ⟨n, hn⟩ : ∃ n, E + 1 - S = n + 1 := ⟨E - S, by omega⟩
    obtain ⟨x, r, h1, h2, h3⟩ := cut_last c.file size q (by omega) n S
    rw [hn, h1]
    have hflat : ∀ k ≤ size, x.drop k ++ r.flatten = (c.file.drop (S * size + k)).take (n * size + q - k) := by
      intro k hk
      by_cases hn0 : n = 0
      · obtain ⟨hx, rfl⟩ := h2 hn0
        rw [first_drop c.file size (S * size) k 0 q x hx hk [].flatten (.inr ⟨rfl, rfl⟩), hn0]
        simp
      · obtain ⟨hx, hr⟩ := h3 (by omega)
        rw [first_drop c.file size (S * size) k ((n - 1) * size + q) size x hx hk _ (.inl ⟨rfl, by rw [hr, Nat.succ_mul]⟩)]
        congr 1
        obtain ⟨m, rfl⟩ : ∃ m, n = m + 1 := ⟨n - 1, by omega⟩
        simp only [Nat.add_sub_cancel, Nat.succ_mul]
        omega
    have hne : n * size + S * size = E * size := by rw [← Nat.add_mul, show n + S = E by omega]
    by_cases hp0 : p = 0
    · subst hp0
      simp only [if_true, List.flatten_cons]
      have := hflat 0 (by omega)
      rw [List.drop_zero, hSs] at this
      rw [this]
      congr 2
      omega
    · simp only [if_neg hp0, cutFirst, List.flatten_cons]
      rw [hflat p (by omega), hSs]
      congr 2
      omega

theorem cache_step (size : Nat) (o : CacheOp) (c : FileCache) (h : CacheGood size c) : CacheGood size (cacheStep size o c) ∧ (cacheStep size o c).file = c.file ∧ (cacheStep size o c).pos = c.pos := by
  cases o with
  | hint s e => exact (chunks_good size _ c h).2
  | get s e => exact (chunks_good size _ c h).2

theorem cache_steps (size : Nat) : ∀ (ops : List CacheOp) (c : FileCache), CacheGood size c →
    CacheGood size (ops.foldl (fun c o => cacheStep size o c) c) ∧ (ops.foldl (fun c o => cacheStep size o c) c).file = c.file ∧ (ops.foldl (fun c o => cacheStep size o c) c).pos = c.pos
  | [], c, h => ⟨h, rfl, rfl⟩
  | o :: ops, c, h => by
    obtain ⟨h1, h2, h3⟩ := cache_step size o c h
    obtain ⟨k1, k2, k3⟩ := cache_steps size ops _ h1
    exact ⟨k1, k2.trans h2, k3.trans h3⟩

/-- **C182**: whatever was looked at before, the bytes given are those of the file from `s` to `e`, also behind its end, and the place in the file is left as it was. -/
theorem C182_get (data : Bytes) (size pos s e : Nat) (hs : 0 < size) (hse : s ≤ e) (ops : List CacheOp) :
    (get size s e (ops.foldl (fun c o => cacheStep size o c) ⟨data, pos, []⟩)).1 = .ok ((data.drop s).take (e - s)) ∧
    (get size s e (ops.foldl (fun c o => cacheStep size o c) ⟨data, pos, []⟩)).2.pos = pos := by
  obtain ⟨h1, h2, h3⟩ := cache_steps size ops ⟨data, pos, []⟩ (fun e he => absurd he List.not_mem_nil)
  refine ⟨?_, ?_⟩
  · rw [get_slice size s e _ hs h1 hse, h2]
  · have := (cache_step size (.get s e) _ h1).2.2
    exact this.trans h3

/-- **C182**: never more than 100 chunks are remembered. -/
theorem C182_few (size start : Nat) (c : FileCache) (h : c.cached.length ≤ 100) : (getChunk size start c).2.cached.length ≤ 100 := by
  unfold getChunk
  cases hl : c.cached.lookup start with
  | none => simp only [List.length_take]; omega
  | some b =>
    have hlt : ∀ l : List (Nat × Bytes), l.lookup start = some b → (l.filter fun e => e.1 != start).length + 1 ≤ l.length := by
      intro l
      induction l with
      | nil => intro h; cases h
      | cons x l ih =>
        intro h
        obtain ⟨k, v⟩ := x
        rw [List.lookup_cons] at h
        by_cases hk : start = k
        · subst hk
          have := List.length_filter_le (fun e : Nat × Bytes => e.1 != start) l
          simp
          exact this
        · rw [beq_eq_false_iff_ne.mpr hk] at h
          have := ih h
          rw [List.filter_cons, if_pos (by simpa using Ne.symm hk)]
          simp only [List.length_cons]
          omega
    have := hlt _ hl
    simp only [List.length_cons]
    omega

/-- **C182** (disagreement): a file that is changed after a chunk was read is shown as it was. -/
theorem C182_stale (size start : Nat) (old new : Bytes) (pos : Nat) : (getChunk size start { (getChunk size start ⟨old, pos, []⟩).2 with file := new }).1 = (old.drop start).take size := by
  simp [getChunk]

/-- **C182** (disagreement): a range that ends before the chunk it begins in is an error, not empty. -/
theorem C182_backwards (size s e : Nat) (c : FileCache) (h : (e + size - 1) / size ≤ s / size) (he : e % size ≠ 0) : (get size s e c).1 = .error .index := by
  unfold Wx.get
  rw [Nat.sub_eq_zero_of_le h]
  simp [getChunks, cut, he, cutLast]

/-! ### Example -/

example : (Wx.get 4 3 9 (cacheStep 4 (.hint 0 6) ⟨[0, 1, 2, 3, 4, 5, 6, 7, 8, 9], 2, []⟩)).1 = .ok [3, 4, 5, 6, 7, 8] :=
  (C182_get [0, 1, 2, 3, 4, 5, 6, 7, 8, 9] 4 2 3 9 (by decide) (by decide) [.hint 0 6]).1

example : (Wx.get 4096 5000 3 ⟨[], 0, []⟩).1 = .error .index := C182_backwards 4096 5000 3 _ (by decide) (by decide)

end Hachoir.Props
