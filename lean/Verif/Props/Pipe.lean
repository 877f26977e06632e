import Verif.Stream.PipeLemmas
import Verif.Stream.InputLemmas
import Verif.Props.InputStream

/-!
# Properties C07 and C08: the caching pipe
-/

namespace Props
open Hachoir Hachoir.Stream Spec

/-- Specification: one operation on a seekable file with contents `src` at
position `pos`. -/
def fileStep (src : Bytes) (pos : Nat) : PipeOp → Nat × Except PyErr Bytes
  | .seek a => if 0 ≤ a then (a.toNat, .ok []) else (pos, .error .assertion)
  | .read n => (pos + ((src.drop pos).take n).length, .ok ((src.drop pos).take n))

/-- Specification: the outcomes `rs` of the operations `ops` are those of a
seekable file, except that a read may fail with the "buffers too small" error
and then leaves the position unchanged. -/
def AgreesWithFile (src : Bytes) : Nat → List PipeOp → List (Except PyErr Bytes) → Prop
  | _, [], [] => True
  | pos, op :: ops, r :: rs =>
    (r = (fileStep src pos op).2 ∧ AgreesWithFile src (fileStep src pos op).1 ops rs) ∨
    (r = .error .inputStream ∧ (∃ n, op = .read n) ∧ AgreesWithFile src pos ops rs)
  | _, _, _ => False

/-- Specification: all the outcomes of a file. -/
def fileRun (src : Bytes) : Nat → List PipeOp → List (Except PyErr Bytes)
  | _, [] => []
  | pos, op :: ops => (fileStep src pos op).2 :: fileRun src (fileStep src pos op).1 ops

theorem pipeSeek_inv (k nbMin : Nat) (src : Bytes) (p : Pipe) (ord : List Nat) (h : PInv k nbMin src p ord)
    (a : Nat) : PInv k nbMin src { p with address := a } ord :=
  ⟨h.nodup, h.mem, h.dead, h.live, h.last, h.ring, h.input, h.pos, h.first, h.unpub, h.pub⟩

/-- One step from a consistent state. -/
theorem pipeStep_ok (k nbMin : Nat) (hnb : 0 < nbMin) (src : Bytes) (p : Pipe) (ord : List Nat)
    (h : PInv k nbMin src p ord) (op : PipeOp) :
    (∃ ord', PInv k nbMin src (pipeStep k nbMin p op).1 ord') ∧
    ((pipeStep k nbMin p op).2 = (fileStep src p.address op).2 ∧
      (pipeStep k nbMin p op).1.address = (fileStep src p.address op).1 ∨
     (pipeStep k nbMin p op).2 = .error .inputStream ∧ (∃ n, op = .read n) ∧
      (pipeStep k nbMin p op).1.address = p.address ∧ p.address / 2 ^ k < p.first) := by
  cases op with
  | seek a =>
    by_cases ha : 0 ≤ a
    · simp only [pipeStep, pipeSeek, ha, if_true, fileStep]
      exact ⟨⟨ord, pipeSeek_inv k nbMin src p ord h _⟩, Or.inl ⟨trivial, trivial⟩⟩
    · simp only [pipeStep, pipeSeek, ha, if_false, fileStep]
      exact ⟨⟨ord, h⟩, Or.inl ⟨trivial, trivial⟩⟩
  | read n =>
    obtain ⟨p', ord', h1, _, _, h3, h4, _⟩ := pipeRead_ok k nbMin hnb src p ord h n
    by_cases hg : p.first ≤ p.address / 2 ^ k ∨ (n = 0 ∧ p.address % 2 ^ k = 0)
    · obtain ⟨e1, e2⟩ := h3 hg
      simp only [pipeStep, fileStep, e1]
      exact ⟨⟨ord', h1⟩, Or.inl ⟨trivial, e2⟩⟩
    · obtain ⟨e1, e2⟩ := h4 (by omega)
      simp only [pipeStep, fileStep, e1]
      exact ⟨⟨ord', h1⟩, Or.inr ⟨trivial, ⟨n, rfl⟩, e2, by omega⟩⟩

theorem pipeRun_inv (k nbMin : Nat) (hnb : 0 < nbMin) (src : Bytes) (ops : List PipeOp) (p : Pipe)
    (ord : List Nat) (h : PInv k nbMin src p ord) :
    ∃ ord', PInv k nbMin src (pipeRun k nbMin p ops).1 ord' := by
  induction ops generalizing p ord with
  | nil => exact ⟨ord, h⟩
  | cons op ops ih =>
    obtain ⟨⟨ord', h'⟩, _⟩ := pipeStep_ok k nbMin hnb src p ord h op
    exact ih _ _ h'

/-! ## C07 -/

/-- C07: for every source and every sequence of seeks and reads, the outcomes
are those of a seekable file with the same contents, except for reads refused
with the "buffers too small" error, which leave the position unchanged.
(`k` is `buffer_size` = 16, `nbMin` is `buffer_nb_min` = 256 in the code.) -/
theorem C07_pipe_transparent (k nbMin : Nat) (hnb : 0 < nbMin) (src : Bytes) (ops : List PipeOp) :
    AgreesWithFile src 0 ops (pipeRun k nbMin (Pipe.init src) ops).2 := by
  have main : ∀ (p : Pipe) (ord : List Nat), PInv k nbMin src p ord →
      AgreesWithFile src p.address ops (pipeRun k nbMin p ops).2 := by
    induction ops with
    | nil => intro p ord h; trivial
    | cons op ops ih =>
      intro p ord h
      obtain ⟨⟨ord', h'⟩, h2⟩ := pipeStep_ok k nbMin hnb src p ord h op
      have := ih _ ord' h'
      simp only [pipeRun, AgreesWithFile]
      rcases h2 with ⟨e1, e2⟩ | ⟨e1, e2, e3, _⟩
      · left; rw [← e2]; exact ⟨e1, this⟩
      · right; rw [e3] at this; exact ⟨e1, e2, this⟩
  exact main _ _ (PInv_init k nbMin src)

/-- A source longer than the cache: blocks of two bytes, one block kept.  Going
back is refused, and going on works. -/
example : (pipeRun 1 1 (Pipe.init [1, 2, 3, 4, 5, 6, 7])
    [.read 3, .read 2, .seek 0, .read 1, .seek 6, .read 5]).2 =
    [.ok [1, 2, 3], .ok [4, 5], .ok [], .error .inputStream, .ok [], .ok [7]] := by
  decide +kernel

/-- C07: blocks are only discarded from the start of the source, and never one
of the `nbMin` most recently loaded ones: a read that starts in one of these
blocks (or after them) returns the bytes of the source. -/
theorem C07_recent_blocks_readable (k nbMin : Nat) (hnb : 0 < nbMin) (src : Bytes) (ops : List PipeOp)
    (p : Pipe) (hp : p = (pipeRun k nbMin (Pipe.init src) ops).1) (n : Nat)
    (hrecent : p.buffers.length ≤ p.address / 2 ^ k + nbMin) :
    (pipeRead k nbMin p n).2 = .ok ((src.drop p.address).take n) := by
  obtain ⟨ord, h⟩ := pipeRun_inv k nbMin hnb src ops _ _ (PInv_init k nbMin src)
  rw [← hp] at h
  obtain ⟨p', ord', _, _, _, h3, _, _⟩ := pipeRead_ok k nbMin hnb src p ord h n
  have hq := Nat.zero_le (p.address / 2 ^ k)
  rw [(h3 (by left; rcases h.first with e | e <;> omega)).1]

/-- C07: the discarded blocks are always an initial segment, and at least
`nbMin` blocks stay in memory once something was discarded. -/
theorem C07_discarded_prefix (k nbMin : Nat) (hnb : 0 < nbMin) (src : Bytes) (ops : List PipeOp)
    (p : Pipe) (hp : p = (pipeRun k nbMin (Pipe.init src) ops).1) :
    ∃ f, (f = 0 ∨ f + nbMin ≤ p.buffers.length) ∧
      ∀ i, i < p.buffers.length → (p.buffers[i]? = some none ↔ i < f) := by
  obtain ⟨ord, h⟩ := pipeRun_inv k nbMin hnb src ops _ _ (PInv_init k nbMin src)
  rw [← hp] at h
  refine ⟨p.first, h.first, ?_⟩
  intro i hi
  constructor
  · intro hd
    rcases Nat.lt_or_ge i p.first with hlt | hge
    · exact hlt
    · have := h.live i hge hi
      simp [slot, hd] at this
  · intro hlt
    have := h.dead i hlt
    unfold slot at this
    cases hb : p.buffers[i]? with
    | none => simp [hb] at this
    | some o =>
      cases o with
      | none => rfl
      | some b => simp [hb] at this

/-- C07: for a source of at most `nbMin` blocks (16 MiB in the code) nothing is
ever refused: the outcomes are exactly those of a file. -/
theorem C07_small_source (k nbMin : Nat) (hnb : 0 < nbMin) (src : Bytes) (hsmall : src.length ≤ nbMin * 2 ^ k)
    (ops : List PipeOp) : (pipeRun k nbMin (Pipe.init src) ops).2 = fileRun src 0 ops := by
  have hk := Nat.two_pow_pos k
  have main : ∀ (p : Pipe) (ord : List Nat), PInv k nbMin src p ord →
      (pipeRun k nbMin p ops).2 = fileRun src p.address ops := by
    induction ops with
    | nil => intro p ord h; rfl
    | cons op ops ih =>
      intro p ord h
      obtain ⟨⟨ord', h'⟩, h2⟩ := pipeStep_ok k nbMin hnb src p ord h op
      have := ih _ ord' h'
      simp only [pipeRun, fileRun]
      rcases h2 with ⟨e1, e2⟩ | ⟨e1, e2, e3, e4⟩
      · rw [e1, this, e2]
      · exfalso
        have hq := Nat.zero_le (p.address / 2 ^ k)
        rcases h.first with e | e
        · omega
        · have hpos := h.pos nbMin (by omega)
          omega
  exact main _ _ (PInv_init k nbMin src)

/-! ### The stream over the pipe -/

/-- A history of reads on the stream: final state. -/
def pipeStreamRun (k nbMin : Nat) : PipeStream → List (Nat × Nat) → PipeStream
  | s, [] => s
  | s, (a, n) :: rest => pipeStreamRun k nbMin (pipeStreamRead k nbMin s a n).1 rest

/-- What a stream in state `s` answers to the next read, as a stream whose read
has no side effect; `readBits` and `readBytes` call `read` once. -/
def _root_.Hachoir.Stream.PipeStream.view (k nbMin : Nat) (s : PipeStream) : InputStream :=
  { read := fun a n => (pipeStreamRead k nbMin s a n).2, size := s.size }

/-- Invariant of the stream over a non-empty source. -/
def SInv (k nbMin : Nat) (src : Bytes) (s : PipeStream) : Prop :=
  (∃ ord, PInv k nbMin src s.pipe ord) ∧
  s.size = if s.pipe.published = [] then none else some (8 * src.length)

theorem setSizeCbs_some (s : Nat) (hs : s ≠ 0) (l : List Nat) : setSizeCbs (some s) l = .ok (some s) := by
  induction l with
  | nil => rfl
  | cons x l ih => simp [setSizeCbs, setSizeCb, hs, ih]

theorem pipeStreamRead_spec (k nbMin : Nat) (hnb : 0 < nbMin) (src : Bytes) (hsrc : src ≠ []) (s : PipeStream)
    (h : SInv k nbMin src s) (a n : Nat) (hn : 0 < n) :
    SInv k nbMin src (pipeStreamRead k nbMin s a n).1 ∧
    (s.size.isSome → (pipeStreamRead k nbMin s a n).1.size = s.size) ∧
    (a / 8 / 2 ^ k < s.pipe.first → (pipeStreamRead k nbMin s a n).2 = .error .inputStream) ∧
    (s.pipe.first ≤ a / 8 / 2 ^ k →
      ((src.drop (a / 8)).take ((n + a % 8 + 7) / 8)).length = (n + a % 8 + 7) / 8 →
      (pipeStreamRead k nbMin s a n).2 =
        .ok (a % 8, (src.drop (a / 8)).take ((n + a % 8 + 7) / 8), false)) ∧
    (s.pipe.first ≤ a / 8 / 2 ^ k →
      ((src.drop (a / 8)).take ((n + a % 8 + 7) / 8)).length ≠ (n + a % 8 + 7) / 8 →
      (pipeStreamRead k nbMin s a n).1.size.isSome ∧
      (pipeStreamRead k nbMin s a n).2 = if s.size.isSome then .error .readStream else
        .ok (a % 8, (src.drop (a / 8)).take ((n + a % 8 + 7) / 8), true)) := by
  obtain ⟨⟨ord, hp⟩, hsz⟩ := h
  have hlen : 8 * src.length ≠ 0 := by
    have := List.length_pos_iff.mpr hsrc; omega
  have hinv := pipeSeek_inv k nbMin src s.pipe ord hp (a / 8)
  obtain ⟨p', ord', h1, h2, ⟨l, hl⟩, h3, h4, h5⟩ :=
    pipeRead_ok k nbMin hnb src _ ord hinv ((n + a % 8 + 7) / 8)
  have hBpos : (n + a % 8 + 7) / 8 ≠ 0 := by omega
  simp only at h2 hl h3 h4
  have hcb : setSizeCbs s.size (p'.published.drop s.pipe.published.length) =
      .ok (if p'.published = [] then none else some (8 * src.length)) := by
    rw [hl, List.drop_left, hsz]
    by_cases he : s.pipe.published = []
    · simp only [he, if_true, List.nil_append]
      cases l with
      | nil => rfl
      | cons x l =>
        have := (h1.pub (by rw [hl]; simp)).1
        rw [hl, he] at this
        simp at this
        subst this
        simp only [setSizeCbs, setSizeCb]
        rw [if_neg hlen]
        simp only [setSizeCbs_some _ hlen, reduceCtorEq, if_false]
    · have : s.pipe.published ++ l ≠ [] := by simp [he]
      rw [if_neg he, if_neg this]
      exact setSizeCbs_some _ hlen l
  obtain ⟨sz', hsz'⟩ : ∃ x, (if p'.published = [] then none else some (8 * src.length)) = x := ⟨_, rfl⟩
  rw [hsz'] at hcb
  have hseek : pipeSeek s.pipe ((a : Int) / 8) = .ok { s.pipe with address := a / 8 } := by
    unfold pipeSeek
    rw [if_pos (by omega)]
    congr 2
  have hshift : ((a : Int) % 8).toNat = a % 8 := by omega
  have hstep : ∀ r, pipeRead k nbMin { s.pipe with address := a / 8 } ((n + a % 8 + 7) / 8) = (p', r) →
      pipeStreamRead k nbMin s a n =
        (let s' : PipeStream := { pipe := p', size := sz' }
         match r with
          | .error e => (s', .error e)
          | .ok data =>
            if decide ((n + a % 8 + 7) / 8 ≠ data.length) ∧ s.size = s'.size then (s', .error .readStream)
            else (s', .ok (a % 8, data, decide ((n + a % 8 + 7) / 8 ≠ data.length)))) := by
    intro r hr
    unfold pipeStreamRead
    rw [if_neg (by omega)]
    simp only [hseek, hshift, Nat.shiftRight_eq_div_pow, show 2 ^ 3 = 8 from rfl, hr, hcb]
    cases r <;> rfl
  have hs' : SInv k nbMin src { pipe := p', size := sz' } :=
    ⟨⟨ord', h1⟩, hsz'.symm⟩
  have hstable : s.size.isSome → sz' = s.size := by
    intro hsome
    rw [← hsz']
    rw [hsz] at hsome ⊢
    by_cases he : s.pipe.published = []
    · simp [he] at hsome
    · have : s.pipe.published ++ l ≠ [] := by simp [he]
      rw [hl, if_neg this, if_neg he]
  by_cases hg : s.pipe.first ≤ a / 8 / 2 ^ k
  · obtain ⟨e1, e2⟩ := h3 (Or.inl hg)
    have hst := hstep _ e1
    simp only at hst
    by_cases hfull : ((src.drop (a / 8)).take ((n + a % 8 + 7) / 8)).length = (n + a % 8 + 7) / 8
    · rw [if_neg (by simp [hfull])] at hst
      rw [hst]
      refine ⟨hs', hstable, fun hc => by omega, fun _ _ => by simp [hfull], fun _ hc => absurd hfull hc⟩
    · have hsome : sz'.isSome = true := by
        rw [← hsz']
        by_cases hpub : p'.published = []
        · exfalso
          have := h5 hpub
          simp only at this
          apply hfull
          rw [List.length_take, List.length_drop]
          omega
        · rw [if_neg hpub]; rfl
      have hmiss : decide ((n + a % 8 + 7) / 8 ≠ ((src.drop (a / 8)).take ((n + a % 8 + 7) / 8)).length) = true :=
        decide_eq_true (Ne.symm hfull)
      by_cases hk : s.size.isSome = true
      · rw [if_pos ⟨hmiss, (hstable hk).symm⟩] at hst
        rw [hst]
        exact ⟨hs', hstable, fun hc => by omega, fun _ hc => absurd hc hfull, fun _ _ => ⟨hsome, by rw [if_pos hk]⟩⟩
      · rw [if_neg (fun hc => hk (by rw [hc.2]; exact hsome))] at hst
        rw [hst]
        exact ⟨hs', hstable, fun hc => by omega, fun _ hc => absurd hc hfull, fun _ _ =>
          ⟨hsome, by rw [if_neg hk, hmiss]⟩⟩
  · obtain ⟨e1, e2⟩ := h4 ⟨by omega, by omega⟩
    have hst := hstep _ e1
    simp only at hst
    rw [hst]
    exact ⟨hs', hstable, fun _ => rfl, fun hc => absurd hc hg, fun hc => absurd hc hg⟩

theorem pipeStreamRun_inv (k nbMin : Nat) (hnb : 0 < nbMin) (src : Bytes) (hsrc : src ≠ [])
    (hist : List (Nat × Nat)) (s : PipeStream) (h : SInv k nbMin src s) :
    SInv k nbMin src (pipeStreamRun k nbMin s hist) ∧
    (s.size.isSome → (pipeStreamRun k nbMin s hist).size = s.size) := by
  induction hist generalizing s with
  | nil => exact ⟨h, fun _ => rfl⟩
  | cons op hist ih =>
    obtain ⟨a, n⟩ := op
    simp only [pipeStreamRun]
    rcases Nat.eq_zero_or_pos n with rfl | hn
    · have : (pipeStreamRead k nbMin s a 0).1 = s := by simp [pipeStreamRead]
      rw [this]; exact ih s h
    · obtain ⟨h1, h2, _⟩ := pipeStreamRead_spec k nbMin hnb src hsrc s h a n hn
      obtain ⟨h3, h4⟩ := ih _ h1
      refine ⟨h3, ?_⟩
      intro hsome
      rw [h4 (by rw [h2 hsome]; exact hsome), h2 hsome]

theorem SInv_init (k nbMin : Nat) (src : Bytes) : SInv k nbMin src (PipeStream.init src) :=
  ⟨⟨[], PInv_init k nbMin src⟩, rfl⟩

/-- C07 at the level of bit fields: after any history of reads, `readBits` on
the piped stream returns the bits of the source, or the "buffers too small"
error if the first byte was discarded. -/
theorem C07_piped_readBits (k nbMin : Nat) (hnb : 0 < nbMin) (src : Bytes) (hsrc : src ≠ [])
    (hist : List (Nat × Nat)) (s : PipeStream) (hs : s = pipeStreamRun k nbMin (PipeStream.init src) hist)
    (a n : Nat) (hn : 0 < n) (h : a + n ≤ 8 * src.length) :
    (readBits (s.view k nbMin) a n .big = .ok (ofBitsMSB (((bitsMSB src).drop a).take n)) ∧
      readBits (s.view k nbMin) a n .little = .ok (ofBitsLSB (((bitsLSB src).drop a).take n))) ∨
    (a / 8 / 2 ^ k < s.pipe.first ∧ readBits (s.view k nbMin) a n .big = .error .inputStream ∧
      readBits (s.view k nbMin) a n .little = .error .inputStream) := by
  have hinv : SInv k nbMin src s := by
    rw [hs]; exact (pipeStreamRun_inv k nbMin hnb src hsrc hist _ (SInv_init k nbMin src)).1
  obtain ⟨_, _, h3, h4, _⟩ := pipeStreamRead_spec k nbMin hnb src hsrc s hinv a n hn
  rcases Nat.lt_or_ge (a / 8 / 2 ^ k) s.pipe.first with hd | hl
  · right
    have hr : ∀ e, e ≠ .middle → readBits (s.view k nbMin) a n e = .error .inputStream := by
      intro e he
      have : (s.view k nbMin).read a n = .error .inputStream := h3 hd
      unfold readBits
      cases e with
      | middle => exact absurd rfl he
      | big => simp only [this]
      | little => simp only [this]
    exact ⟨hd, hr .big (by simp), hr .little (by simp)⟩
  · left
    have hst : (stringRead src a n) = .ok (a % 8, (src.drop (a / 8)).take ((n + a % 8 + 7) / 8), false) :=
      stringRead_ok src a n h
    have hlen : ((src.drop (a / 8)).take ((n + a % 8 + 7) / 8)).length = (n + a % 8 + 7) / 8 := by
      rw [List.length_take, List.length_drop]; omega
    have hr : (s.view k nbMin).read a n = stringRead src a n := by
      rw [hst]; exact h4 hl hlen
    have hb : ∀ e, e ≠ .middle →
        readBits (s.view k nbMin) a n e = readBits { read := stringRead src, size := none } a n e := by
      intro e he
      unfold readBits
      cases e with
      | middle => exact absurd rfl he
      | big => simp only [hr]
      | little => simp only [hr]
    exact ⟨by rw [hb .big (by simp)]; exact readBits_string_big _ src rfl a n h,
      by rw [hb .little (by simp)]; exact readBits_string_little _ src rfl a n h⟩

/-- C07: reading past the end of the source is always an error. -/
theorem C07_piped_readBits_past_end (k nbMin : Nat) (hnb : 0 < nbMin) (src : Bytes) (hsrc : src ≠ [])
    (hist : List (Nat × Nat)) (s : PipeStream) (hs : s = pipeStreamRun k nbMin (PipeStream.init src) hist)
    (a n : Nat) (hn : 0 < n) (h : 8 * src.length < a + n) (e : Endian) (he : e ≠ .middle) :
    readBits (s.view k nbMin) a n e = .error .readStream ∨
    readBits (s.view k nbMin) a n e = .error .inputStream := by
  have hinv : SInv k nbMin src s := by
    rw [hs]; exact (pipeStreamRun_inv k nbMin hnb src hsrc hist _ (SInv_init k nbMin src)).1
  obtain ⟨_, _, h3, _, h5⟩ := pipeStreamRead_spec k nbMin hnb src hsrc s hinv a n hn
  have hr : ∀ x, (s.view k nbMin).read a n = x → (x = .error .readStream ∨ x = .error .inputStream ∨
      ∃ d, x = .ok (a % 8, d, true)) → readBits (s.view k nbMin) a n e = .error .readStream ∨
    readBits (s.view k nbMin) a n e = .error .inputStream := by
    intro x hx hor
    unfold readBits
    cases e with
    | middle => exact absurd rfl he
    | big => rcases hor with h | h | ⟨d, h⟩ <;> simp [hx, h]
    | little => rcases hor with h | h | ⟨d, h⟩ <;> simp [hx, h]
  rcases Nat.lt_or_ge (a / 8 / 2 ^ k) s.pipe.first with hd | hl
  · exact hr _ rfl (Or.inr (Or.inl (h3 hd)))
  · have hlen : ((src.drop (a / 8)).take ((n + a % 8 + 7) / 8)).length ≠ (n + a % 8 + 7) / 8 := by
      rw [List.length_take, List.length_drop]; omega
    have e1 := (h5 hl hlen).2
    by_cases hk : s.size.isSome = true
    · rw [if_pos hk] at e1; exact hr _ e1 (Or.inl rfl)
    · rw [if_neg hk] at e1; exact hr _ e1 (Or.inr (Or.inr ⟨_, rfl⟩))

/-! ## C08 -/

/-- C08: after any history of reads the reported size of the stream is unknown
or exactly the length of the source. -/
theorem C08_stream_size_exact (k nbMin : Nat) (hnb : 0 < nbMin) (src : Bytes) (hsrc : src ≠ [])
    (hist : List (Nat × Nat)) :
    (pipeStreamRun k nbMin (PipeStream.init src) hist).size = none ∨
    (pipeStreamRun k nbMin (PipeStream.init src) hist).size = some (8 * src.length) := by
  have := (pipeStreamRun_inv k nbMin hnb src hsrc hist _ (SInv_init k nbMin src)).1.2
  rw [this]
  split
  · left; rfl
  · right; rfl

/-- C08: once known, the reported size never changes, whatever is read later. -/
theorem C08_stream_size_stable (k nbMin : Nat) (hnb : 0 < nbMin) (src : Bytes) (hsrc : src ≠ [])
    (hist more : List (Nat × Nat)) (s : PipeStream)
    (hs : s = pipeStreamRun k nbMin (PipeStream.init src) hist) (sz : Nat) (hsz : s.size = some sz) :
    (pipeStreamRun k nbMin s more).size = some sz := by
  have hinv : SInv k nbMin src s := by
    rw [hs]; exact (pipeStreamRun_inv k nbMin hnb src hsrc hist _ (SInv_init k nbMin src)).1
  rw [(pipeStreamRun_inv k nbMin hnb src hsrc more s hinv).2 (by simp [hsz]), hsz]

/-- The size does become known: reading past the end. -/
example : (pipeStreamRun 1 1 (PipeStream.init [1, 2, 3]) [(0, 8), (0, 40), (0, 400), (32, 8)]).size = some 24 := by
  decide +kernel

/-- C08 (disagreement, pipe level): the attribute `size` of the pipe itself *is*
changed by a later read past the end; the second value is not the length of the
source. (The stream ignores the second publication.) -/
theorem C08_pipe_size_changes :
    (pipeRun 1 1 (Pipe.init [1, 2, 3]) [.read 4]).1.size = some 3 ∧
    (pipeRun 1 1 (Pipe.init [1, 2, 3]) [.read 4, .seek 0, .read 40]).1.size = some 4 ∧
    (pipeRun 1 1 (Pipe.init [1, 2, 3]) [.read 4, .seek 0, .read 40]).1.published = [3, 4] := by
  decide +kernel

/-- C08: an empty source is reported with NullStreamError on the first read. -/
theorem C08_empty_source (k nbMin : Nat) (a n : Nat) (hn : 0 < n) :
    (pipeStreamRead k nbMin (PipeStream.init []) a n).2 = .error .nullStream := by
  have hk : 1 <<< k = 2 ^ k := by rw [Nat.shiftLeft_eq, Nat.one_mul]
  have hkpos := Nat.two_pow_pos k
  unfold pipeStreamRead
  rw [if_neg (by omega)]
  have hseek : pipeSeek (PipeStream.init []).pipe ((a : Int) / 8) = .ok { Pipe.init [] with address := a / 8 } := by
    unfold pipeSeek
    rw [if_pos (by omega)]
    rfl
  simp only [hseek]
  obtain ⟨m, hm⟩ : ∃ m, (n + ((a : Int) % 8).toNat + 7) >>> 3 = m := ⟨_, rfl⟩
  simp only [hm]
  have hload : pipeLoad k { Pipe.init [] with address := a / 8 } (((a / 8 + m) >>> k) + 1 - 0) =
      .ok { Pipe.init [] with address := a / 8, size := some 0, published := [0] } := by
    simp [pipeLoad, Pipe.init, hk, hkpos]
  have hjoin : ∀ c i acc (p : Pipe), p.buffers = [] → pipeJoin p acc i c = (p, .ok acc) := by
    intro c
    induction c with
    | zero => intros; rfl
    | succ c ih =>
      intro i acc p hp
      simp [pipeJoin, pipeGet, hp, ih]
  have hread : (pipeRead k nbMin { Pipe.init [] with address := a / 8 } m).1.published = [0] := by
    unfold pipeRead
    simp only [Pipe.init, List.length_nil] at hload ⊢
    rw [hload]
    simp only
    rw [hjoin _ _ _ _ rfl]
    simp only
    rw [pipeFlush]
    have hneg : ¬ ((nbMin : Int) < 0) := by omega
    simp [hneg]
  rcases hr : pipeRead k nbMin { Pipe.init [] with address := a / 8 } m with ⟨p', r⟩
  rw [hr] at hread
  simp only at hread
  simp [hread, PipeStream.init, Pipe.init, setSizeCbs, setSizeCb]

end Props
