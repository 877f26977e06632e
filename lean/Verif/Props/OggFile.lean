import Verif.Props.OggMeta
import Verif.Core.FloatError

/-!
# C160: streams, tracks and playing time of Ogg files
-/

namespace Hachoir.Props
open Hachoir Hachoir.Metadata Hachoir.Core Hachoir.Metadata.Archive Hachoir.Metadata.Ogg _root_.Props

/-! ### Specification -/

/-- The number written with decimal digits. -/
def writtenValue (t : Text) : Nat := t.foldl (fun n c => 10 * n + (c - 48)) 0

/-- Decimal digits. -/
def IsNumber (t : Text) : Prop := t ≠ [] ∧ ∀ c ∈ t, 48 ≤ c ∧ c ≤ 57

/-- Numbers are told when they are in a range. -/
def ranged (lo hi n : Nat) : List Value := if lo ≤ n ∧ n ≤ hi then [.num (.int n)] else []

/-- Functions that make texts of frequencies, channels, rates and durations do not raise. -/
structure WritesAudio (env : Env) : Prop where
  frequency : ∀ n : Nat, ∃ t, env.handler "humanFrequency" (.num (.int n)) = .ok t
  channel : ∀ n : Nat, ∃ t, env.handler "humanAudioChannel" (.num (.int n)) = .ok t
  bitRate : ∀ n : Nat, ∃ t, env.handler "humanBitRate" (.num (.int n)) = .ok t
  duration : ∀ n : Int, ∃ t, env.handler "humanDuration" (.duration n) = .ok t

/-- The pages that are looked at: the first three, and the next one with segments. -/
def looked (ps : List (Option PageInfo)) : List PageInfo := (ps.take 3).filterMap id ++ ((ps.drop 3).filterMap id).take 1

/-- The headers of the streams. -/
def headersOf (ps : List (Option PageInfo)) : List VorbisHeader := (looked ps).filterMap PageInfo.vorbis

/-! ### Tracks -/

theorem digits_number : ∀ (t : Text) (n : Nat) (b : Bool), (∀ c ∈ t, 48 ≤ c ∧ c ≤ 57) → (t ≠ [] ∨ b = true) → Metadata.digits b n t = some (t.foldl (fun n c => 10 * n + (c - 48)) n)
  | [], n, b, _, h => by
    have : b = true := by simpa using h
    simp [Metadata.digits, this]
  | c :: r, n, b, hd, _ => by
    obtain ⟨h1, h2⟩ := hd c (by simp)
    rw [Metadata.digits, if_pos (by simp [h1, h2]), digits_number r _ true (fun x hx => hd x (by simp [hx])) (.inr rfl), List.foldl_cons]

theorem strip_number (t : Text) (h : ∀ c ∈ t, 48 ≤ c ∧ c ≤ 57) : Field.stripText Metadata.isSpace t = t := by
  have hs : ∀ c, 48 ≤ c ∧ c ≤ 57 → Metadata.isSpace c = false := by
    intro c hc
    simp only [Metadata.isSpace, Bool.or_eq_false_iff, beq_eq_false_iff_ne, Bool.and_eq_false_iff, decide_eq_false_iff_not]
    omega
  have key : ∀ l : Text, (∀ c ∈ l, 48 ≤ c ∧ c ≤ 57) → l.dropWhile Metadata.isSpace = l := by
    intro l hl
    cases l with
    | nil => rfl
    | cons c r => rw [List.dropWhile_cons, hs c (hl c (by simp))]; rfl
  unfold Field.stripText
  rw [key t h, key t.reverse (fun c hc => h c (by simpa using hc)), List.reverse_reverse]

theorem int_number (t : Text) (h : IsNumber t) : Metadata.pyInt t = some (writtenValue t : Int) := by
  obtain ⟨h1, h2⟩ := h
  unfold Metadata.pyInt
  rw [strip_number t h2]
  cases t with
  | nil => exact absurd rfl h1
  | cons c r =>
    have hc := h2 c (by simp)
    have hd := digits_number (c :: r) 0 false h2 (.inl (by simp))
    split
    · rename_i e
      simp only [List.cons.injEq] at e
      omega
    · rename_i e
      simp only [List.cons.injEq] at e
      omega
    · rw [hd]
      rfl

theorem number_filter (lo hi n : Nat) : Filter.call (.number (some (.int lo)) (some (.int hi))) (.num (.int n)) = .ok (decide (lo ≤ n ∧ n ≤ hi)) := by
  simp only [Filter.call, below, above, Num.toFlt, Flt.lt]
  congr 1
  have h1 : ((Int.cast (n : Int) : Rat) < (Int.cast (lo : Int) : Rat)) ↔ n < lo := by push_cast; exact Nat.cast_lt
  have h2 : ((Int.cast (hi : Int) : Rat) < (Int.cast (n : Int) : Rat)) ↔ hi < n := by push_cast; exact Nat.cast_lt
  simp only [h1, h2]
  by_cases a : lo ≤ n <;> by_cases b : n ≤ hi <;> simp [a, b, Nat.lt_of_not_le, Nat.not_lt.2]

theorem track_add (cfg : Config) (env : Env) (t : Text) (h : IsNumber t) : (addVals cfg env "track_total" (.value (.text t)) []).map Item.value = ranged 1 999 (writtenValue t) := by
  unfold addVals
  rw [reg_total]
  simp only
  rw [Data.add, Data.candidate]
  have hf := number_filter 1 999 (writtenValue t)
  simp only [Data.convert, setTrackTotal, convInt, int_number t h, bind, Except.bind, Data.typeOk, Value.isInstance, List.any_cons, Bool.true_or, Bool.not_true, Bool.false_eq_true, if_false, contains, Data.filterOk]
  rw [show Filter.call (.number (some (.int 1)) (some (.int 999))) (.num (.int (writtenValue t))) = _ from hf]
  simp only
  unfold ranged
  by_cases hr : 1 ≤ writtenValue t ∧ writtenValue t ≤ 999
  · rw [if_pos hr, decide_eq_true hr]
    rfl
  · rw [if_neg hr, decide_eq_false hr]
    rfl

theorem slash_split (a b : Text) (h : 47 ∉ a) : splitSlash (a ++ 47 :: b) = some (a, b) := by
  induction a with
  | nil => rfl
  | cons c a ih =>
    rw [List.cons_append, splitSlash, if_neg (fun e => h (by simp [e])), ih (fun e => h (by simp [e]))]
    rfl

theorem number_add (cfg : Config) (env : Env) (t b : Text) (h : IsNumber t) : (addVals cfg env "track_number" (.value (.text (t ++ 47 :: b))) []).map Item.value = ranged 1 999 (writtenValue t) := by
  have hs := slash_split t b (fun e => by have := h.2 47 e; omega)
  unfold addVals
  rw [reg_track]
  simp only
  rw [Data.add, Data.candidate]
  have hf := number_filter 1 999 (writtenValue t)
  simp only [Data.convert, setTrackNumber, hs, convInt, int_number t h, bind, Except.bind, Data.typeOk, Value.isInstance, List.any_cons, Bool.true_or, Bool.not_true, Bool.false_eq_true, if_false, contains, Data.filterOk]
  rw [show Filter.call (.number (some (.int 1)) (some (.int 999))) (.num (.int (writtenValue t))) = _ from hf]
  simp only
  unfold ranged
  by_cases hr : 1 ≤ writtenValue t ∧ writtenValue t ≤ 999
  · rw [if_pos hr, decide_eq_true hr]
    rfl
  · rw [if_neg hr, decide_eq_false hr]
    rfl

theorem total_filter : ∀ l : List (String × Arg), l.filter (fun p => p.1 = "track_total") = [] →
    (l.flatMap single).filter (fun p => p.1 = "track_total") = (l.filter fun p => p.1 = "track_number").flatMap fun p => (trackTotal p.1 p.2).toList.map fun t => ("track_total", .value (.text t))
  | [], _ => rfl
  | p :: l, h => by
    have hp : p.1 ≠ "track_total" := by
      intro e
      rw [List.filter_cons_of_pos (by simpa using e)] at h
      cases h
    rw [List.filter_cons_of_neg (by simpa using hp)] at h
    rw [List.flatMap_cons, List.filter_append, total_filter l h]
    unfold single
    by_cases hn : p.1 = "track_number"
    · rw [List.filter_cons_of_pos (by simpa using hn), List.flatMap_cons]
      cases trackTotal p.1 p.2 with
      | none => simp [hp]
      | some t => simp [hp]
    · rw [List.filter_cons_of_neg (by simpa using hn)]
      have : trackTotal p.1 p.2 = none := by unfold trackTotal; rw [if_neg hn]
      rw [this]
      simp [hp]

/-- **C160.** The comment `TRACKNUMBER=n/m` tells the number of the track and the number of all tracks. -/
theorem C160_track (cfg : Config) (env : Env) (hw : Writes env) (hd : WritesDays env) (upper : Text → Text) (h : Text) (vendor : Option Text) (items : List Text) (hg : GoodDates env upper items)
    (n m : Text) (hn : IsNumber n) (hm : IsNumber m) (h1 : TextsFor upper "track_number" items [n ++ 47 :: m]) (h2 : TextsFor upper "track_total" items []) :
    toldFor (readComments cfg upper (Metadata.new env h) vendor items) "track_number" = ranged 1 999 (writtenValue n) ∧
    toldFor (readComments cfg upper (Metadata.new env h) vendor items) "track_total" = ranged 1 999 (writtenValue m) := by
  rw [show Metadata.new env h = ⟨h, filled env fun _ => []⟩ by rw [filled_nil]; rfl]
  obtain ⟨g, e1, -, e3⟩ := comments_core cfg env hw hd upper h (fun _ => []) (by simp) vendor items hg []
  rw [List.append_nil] at e1
  rw [e1]
  simp only [List.filterMap_nil, List.map_nil, assign]
  have f1 := texts_filter upper _ _ _ h1
  have f2 := texts_filter upper _ _ _ h2
  constructor
  · rw [told_filled env h g _ _ (reg_track env), e3, valsFor, single_filter _ (by decide), assignments, vendor_vals, f1]
    exact number_add cfg env n m hn
  · rw [told_filled env h g _ _ (reg_total env), e3, valsFor, total_filter, assignments, List.filter_cons_of_neg (by simp), f1]
    · have : trackTotal "track_number" (.value (.text (n ++ 47 :: m))) = some m := by
        unfold trackTotal
        rw [if_pos rfl]
        simp only
        rw [slash_split n m (fun e => by have := hn.2 47 e; omega)]
        rfl
      simp only [List.map_cons, List.map_nil, List.flatMap_cons, List.flatMap_nil, this, Option.toList_some, List.append_nil, List.foldl_cons, List.foldl_nil]
      exact track_add cfg env m hm
    · rw [assignments, List.filter_cons_of_neg (by simp), f2]
      rfl

/-! ### Streams -/

theorem reg_sampleRate (env : Env) : (registerAllItems env).find? (fun d => d.key = "sample_rate") =
    some { key := "sample_rate", priority := 304, description := "Sample rate", type := some [.int, .float], filter := some (.number (some (.int 1000)) (some (.int 192000))), textHandler := some (env.handler "humanFrequency"), plainText := Metadata.plainText env } := by
  simp [registerAllItems]

theorem reg_channels (env : Env) : (registerAllItems env).find? (fun d => d.key = "nb_channel") =
    some { key := "nb_channel", priority := 303, description := "Channel", type := some [.int], filter := some (.number (some (.int 1)) (some (.int 8))), textHandler := some (env.handler "humanAudioChannel"), plainText := Metadata.plainText env } := by
  simp [registerAllItems]

theorem reg_version (env : Env) : (registerAllItems env).find? (fun d => d.key = "format_version") =
    some { key := "format_version", priority := 950, description := "Format version", type := some [.str], plainText := Metadata.plainText env } := by
  simp [registerAllItems]

theorem reg_bitRate (env : Env) : (registerAllItems env).find? (fun d => d.key = "bit_rate") =
    some { key := "bit_rate", priority := 604, description := "Bit rate", type := some [.int, .float], filter := some (.number (some (.int 1)) (some (.int 524288000))), textHandler := some (env.handler "humanBitRate"), plainText := Metadata.plainText env } := by
  simp [registerAllItems]

theorem reg_duration (env : Env) : (registerAllItems env).find? (fun d => d.key = "duration") =
    some { key := "duration", priority := 201, description := "Duration", type := some [.timedelta], filter := some durationFilter, textHandler := some (env.handler "humanDuration"), plainText := Metadata.plainText env } := by
  simp [registerAllItems]

theorem set_ranged (cfg : Config) (env : Env) (h : Text) (f : String → List Item) (k : String) (d0 : Data) (lo hi n : Nat) (hk : k ≠ "track_number") (hd : (registerAllItems env).find? (fun d => d.key = k) = some d0)
    (hty : d0.typeOk (.num (.int n)) = true) (hc : d0.conversion = none) (w : Value → Except PyErr Text) (hh : d0.textHandler = some w) (ht : ∃ t, w (.num (.int n)) = .ok t)
    (hfi : d0.filter = some (.number (some (.int lo)) (some (.int hi)))) (hf : f k = []) :
    ∃ vs, vs.map Item.value = ranged lo hi n ∧ (⟨h, filled env f⟩ : Metadata).set cfg k (.value (.num (.int n))) = .ok ⟨h, filled env (Function.update f k vs)⟩ := by
  obtain ⟨t, ht⟩ := ht
  refine ⟨if decide (lo ≤ n ∧ n ≤ hi) then [⟨.num (.int n), t⟩] else [], ?_, ?_⟩
  · unfold ranged
    by_cases hr : lo ≤ n ∧ n ≤ hi
    · rw [if_pos (decide_eq_true hr), if_pos hr]
      rfl
    · rw [if_neg (by simpa using hr), if_neg hr]
      rfl
  · refine set_filled cfg env h f k _ d0 _ hk hd ?_
    exact add_number cfg { d0 with values := f k } (.int n) w t hf hty hc hh ht _ (by rw [Data.filterOk]; simp only [hfi]; exact number_filter lo hi n)

theorem strip_ne (f : Nat → Bool) (c : Nat) (r : Text) (h : f c = false) : Field.stripText f (c :: r) ≠ [] := by
  unfold Field.stripText
  rw [List.dropWhile_cons, h]
  simp only [Bool.false_eq_true, if_false]
  intro e
  rw [List.reverse_eq_nil_iff, List.dropWhile_eq_nil_iff] at e
  have := e c (by simp)
  rw [h] at this
  cases this

theorem vorbis_ne (cfg : Config) (r : Text) : normalizeString cfg (86 :: r) ≠ [] := by
  unfold normalizeString
  cases cfg.rawOutput
  · simp only [Bool.false_eq_true, if_false]
    exact strip_ne _ _ _ (by decide)
  · simp

theorem set_str (cfg : Config) (env : Env) (h : Text) (f : String → List Item) (k : String) (d0 : Data) (hk : k ≠ "track_number") (hd : (registerAllItems env).find? (fun d => d.key = k) = some d0)
    (ht : d0.type = none ∨ d0.type = some [.str]) (hfi : d0.filter = none) (hc : d0.conversion = none) (t : Text) (hb : normalizeString cfg t ≠ []) (hf : f k = []) :
    (⟨h, filled env f⟩ : Metadata).set cfg k (.value (.text t)) = .ok ⟨h, filled env (Function.update f k [textItem (toldName cfg t)])⟩ :=
  set_filled cfg env h f k _ d0 _ hk hd (add_text cfg _ t hf ht hfi hc hb)

theorem vorbis_core (cfg : Config) (env : Env) (hw : WritesAudio env) (v : VorbisHeader) : ∃ f, vorbisHeader cfg env v = .ok ⟨txt "Metadata", filled env f⟩ ∧
    f "compression" = [textItem (toldName cfg (txt "Vorbis"))] ∧ (f "sample_rate").map Item.value = ranged 1000 192000 v.rate ∧ (f "nb_channel").map Item.value = ranged 1 8 v.channels ∧
    f "format_version" = [textItem (toldName cfg (txt "Vorbis version " ++ decimal v.version))] ∧ (f "bit_rate").map Item.value = ranged 1 524288000 v.nominal := by
  rw [vorbisHeader, show Metadata.new env (txt "Metadata") = ⟨txt "Metadata", filled env fun _ => []⟩ by rw [filled_nil]; rfl,
    set_str cfg env _ _ "compression" _ (by decide) (reg_compression env) (.inl rfl) rfl rfl (txt "Vorbis") (vorbis_ne cfg _) rfl]
  obtain ⟨v2, a2, b2⟩ := set_ranged cfg env (txt "Metadata") (Function.update (fun _ => []) "compression" [textItem (toldName cfg (txt "Vorbis"))]) "sample_rate" _ 1000 192000 v.rate (by decide) (reg_sampleRate env) rfl rfl _ rfl
    (hw.frequency v.rate) rfl (by rw [Function.update_of_ne (by decide)])
  simp only [bind, Except.bind, b2]
  obtain ⟨v3, a3, b3⟩ := set_ranged cfg env (txt "Metadata") (Function.update (Function.update (fun _ => []) "compression" [textItem (toldName cfg (txt "Vorbis"))]) "sample_rate" v2) "nb_channel" _ 1 8 v.channels (by decide)
    (reg_channels env) rfl rfl _ rfl (hw.channel v.channels) rfl (by rw [Function.update_of_ne (by decide), Function.update_of_ne (by decide)])
  simp only [b3]
  rw [set_str cfg env _ _ "format_version" _ (by decide) (reg_version env) (.inr rfl) rfl rfl (txt "Vorbis version " ++ decimal v.version) (vorbis_ne cfg _)
    (by rw [Function.update_of_ne (by decide), Function.update_of_ne (by decide), Function.update_of_ne (by decide)])]
  simp only
  obtain ⟨v5, a5, b5⟩ := set_ranged cfg env (txt "Metadata") (Function.update (Function.update (Function.update (Function.update (fun _ => []) "compression" [textItem (toldName cfg (txt "Vorbis"))]) "sample_rate" v2)
      "nb_channel" v3) "format_version" [textItem (toldName cfg (txt "Vorbis version " ++ decimal v.version))]) "bit_rate" _ 1 524288000 v.nominal (by decide) (reg_bitRate env) rfl rfl _ rfl (hw.bitRate v.nominal) rfl
    (by rw [Function.update_of_ne (by decide), Function.update_of_ne (by decide), Function.update_of_ne (by decide), Function.update_of_ne (by decide)])
  refine ⟨_, b5, ?_, ?_, ?_, ?_, ?_⟩
  · rw [Function.update_of_ne (by decide), Function.update_of_ne (by decide), Function.update_of_ne (by decide), Function.update_of_ne (by decide), Function.update_self]
  · rw [Function.update_of_ne (by decide), Function.update_of_ne (by decide), Function.update_of_ne (by decide), Function.update_self, a2]
  · rw [Function.update_of_ne (by decide), Function.update_of_ne (by decide), Function.update_self, a3]
  · rw [Function.update_of_ne (by decide), Function.update_self]
  · rw [Function.update_self, a5]

/-! ### Pages -/

/-- One page. -/
def pageStep (cfg : Config) (env : Env) (upper : Text → Text) (s : State) (p : PageInfo) : Except PyErr State :=
  match headerStep cfg env s p.vorbis with
  | .error e => .error e
  | .ok s => .ok (commentStep cfg upper s p.comment)

/-- Pages one after the other. -/
def runPages (cfg : Config) (env : Env) (upper : Text → Text) : List PageInfo → State → Except PyErr State
  | [], s => .ok s
  | p :: r, s =>
    match pageStep cfg env upper s p with
    | .error e => .error e
    | .ok s => runPages cfg env upper r s

/-- The pages looked at from page `i` on. -/
def lookedFrom (i : Nat) (ps : List (Option PageInfo)) : List PageInfo := (ps.take (3 - i)).filterMap id ++ ((ps.drop (3 - i)).filterMap id).take 1

theorem pages_run (cfg : Config) (env : Env) (upper : Text → Text) : ∀ (ps : List (Option PageInfo)) (i : Nat) (s : State), pages cfg env upper i ps s = runPages cfg env upper (lookedFrom i ps) s
  | [], i, s => by simp [pages, lookedFrom, runPages]
  | none :: r, i, s => by
    rw [pages, pages_run cfg env upper r (i + 1) s]
    congr 1
    unfold lookedFrom
    by_cases h : i < 3
    · rw [show 3 - i = (3 - (i + 1)) + 1 by omega, List.take_succ_cons, List.drop_succ_cons]
      rfl
    · rw [show 3 - i = 0 by omega, show 3 - (i + 1) = 0 by omega]
      rfl
  | some p :: r, i, s => by
    rw [pages]
    by_cases h : 3 ≤ i
    · have : lookedFrom i (some p :: r) = [p] := by
        unfold lookedFrom
        rw [show 3 - i = 0 by omega]
        simp
      rw [this, runPages, pageStep]
      cases headerStep cfg env s p.vorbis with
      | error e => rfl
      | ok s => simp only [if_pos h, runPages]
    · have : lookedFrom i (some p :: r) = p :: lookedFrom (i + 1) r := by
        unfold lookedFrom
        rw [show 3 - i = (3 - (i + 1)) + 1 by omega, List.take_succ_cons, List.drop_succ_cons]
        rfl
      rw [this, runPages, pageStep]
      cases headerStep cfg env s p.vorbis with
      | error e => rfl
      | ok s =>
        simp only [if_neg h]
        exact pages_run cfg env upper r (i + 1) _

/-- The name of the stream with a number. -/
def audioKey (n : Nat) : Text := txt "audio[" ++ txt (toString n) ++ txt "]"

theorem audioKey_inj {i j : Nat} (h : audioKey i = audioKey j) : i = j := by
  unfold audioKey at h
  rw [List.append_assoc, List.append_assoc] at h
  exact decimal_inj' (List.append_cancel_right (List.append_cancel_left h))

/-- What is told of a stream. -/
structure StreamTold (cfg : Config) (v : VorbisHeader) (m : Metadata) : Prop where
  header : m.header = txt "Audio"
  compression : toldFor m "compression" = [.text (toldName cfg (txt "Vorbis"))]
  rate : toldFor m "sample_rate" = ranged 1000 192000 v.rate
  channels : toldFor m "nb_channel" = ranged 1 8 v.channels
  version : toldFor m "format_version" = [.text (toldName cfg (txt "Vorbis version " ++ txt (toString v.version)))]
  bitRate : toldFor m "bit_rate" = ranged 1 524288000 v.nominal

/-- The groups of streams, numbered from 1. -/
def Streams (cfg : Config) : Nat → List VorbisHeader → List (Text × Metadata) → Prop
  | _, [], l => l = []
  | n, v :: vs, l => ∃ m r, l = (audioKey n, m) :: r ∧ StreamTold cfg v m ∧ Streams cfg (n + 1) vs r

theorem Streams.snoc {cfg : Config} (v : VorbisHeader) (m : Metadata) (h : StreamTold cfg v m) : ∀ (vs : List VorbisHeader) (n : Nat) (l : List (Text × Metadata)), Streams cfg n vs l →
    Streams cfg n (vs ++ [v]) (l ++ [(audioKey (n + vs.length), m)])
  | [], n, l, hs => by
    obtain rfl : l = [] := hs
    exact ⟨m, [], rfl, h, rfl⟩
  | w :: vs, n, l, hs => by
    obtain ⟨x, r, rfl, h1, h2⟩ := hs
    refine ⟨x, _, rfl, h1, ?_⟩
    have := Streams.snoc v m h vs (n + 1) r h2
    rw [List.length_cons, show n + (vs.length + 1) = n + 1 + vs.length by omega]
    exact this

theorem Streams.keys {cfg : Config} : ∀ (vs : List VorbisHeader) (n : Nat) (l : List (Text × Metadata)), Streams cfg n vs l → ∀ k ∈ l.map Prod.fst, ∃ j, j < n + vs.length ∧ k = audioKey j
  | [], n, l, hs, k, hk => by
    obtain rfl : l = [] := hs
    cases hk
  | w :: vs, n, l, hs, k, hk => by
    obtain ⟨x, r, rfl, h1, h2⟩ := hs
    rcases List.mem_cons.1 hk with rfl | hk
    · exact ⟨n, by simp, rfl⟩
    · obtain ⟨j, hj, e⟩ := Streams.keys vs (n + 1) r h2 k hk
      exact ⟨j, by rw [List.length_cons]; omega, e⟩

/-- The first sample rate that is told. -/
def firstRate (vs : List VorbisHeader) : Option Nat := (vs.map VorbisHeader.rate).find? fun r => 1000 ≤ r ∧ r ≤ 192000

theorem header_eq (cfg : Config) (env : Env) (s : State) (v : VorbisHeader) (m : Metadata) (file : Multiple) (b : Bool) (hv : vorbisHeader cfg env v = .ok m)
    (ha : s.file.addGroup (txt "audio[]") m (some (txt "Audio")) = (file, .ok b)) : headerStep cfg env s (some v) = .ok ⟨file, quotientStep s.quotient m⟩ := by
  unfold headerStep
  simp only [hv]
  show grouped _ _ = _
  rw [ha]
  rfl

/-- What holds after some of the streams. -/
structure After (cfg : Config) (env : Env) (h : Text) (vs : List VorbisHeader) (s : State) : Prop where
  dict : DInv s.file.groups
  items : Streams cfg 1 vs s.file.groups.items
  counters : ∀ p, s.file.counters.find? (fun p => p.1 = txt "audio") = some p → p.2 = vs.length
  counters' : s.file.counters.find? (fun p => p.1 = txt "audio") = none → vs.length = 0
  common : ∃ g, s.file.common = ⟨h, filled env g⟩ ∧ (∀ k, ∀ i ∈ g k, Good i.value) ∧ g "duration" = []
  quotient : s.quotient = firstRate vs

theorem firstRate_snoc (vs : List VorbisHeader) (v : VorbisHeader) : firstRate (vs ++ [v]) = (firstRate vs).or (if 1000 ≤ v.rate ∧ v.rate ≤ 192000 then some v.rate else none) := by
  unfold firstRate
  rw [List.map_append, List.find?_append]
  congr 1
  by_cases h : 1000 ≤ v.rate ∧ v.rate ≤ 192000 <;> simp [h]

theorem header_after (cfg : Config) (env : Env) (hw : WritesAudio env) (h : Text) (vs : List VorbisHeader) (s : State) (ha : After cfg env h vs s) (v : VorbisHeader) :
    ∃ s', headerStep cfg env s (some v) = .ok s' ∧ After cfg env h (vs ++ [v]) s' := by
  obtain ⟨f, h1, f1, f2, f3, f4, f5⟩ := vorbis_core cfg env hw v
  have hcomp : toldFor ⟨txt "Metadata", filled env f⟩ "compression" = [.text (toldName cfg (txt "Vorbis"))] := by
    rw [told_filled env _ f _ _ (reg_compression env), f1]
    rfl
  have hne : (⟨txt "Metadata", filled env f⟩ : Metadata).nonEmpty = true := told_nonempty _ "compression" (by rw [hcomp]; simp)
  have hcount : ((s.file.counters.find? (fun p => p.1 = txt "audio")).map (fun p => p.2 + 1)).getD 1 = vs.length + 1 := by
    cases hc : s.file.counters.find? (fun p => p.1 = txt "audio") with
    | none => rw [ha.counters' hc]; rfl
    | some p => rw [← ha.counters p hc]; rfl
  have hstep := addGroup_eq s.file ⟨txt "audio[]", ⟨txt "Metadata", filled env f⟩, some (txt "Audio")⟩ hne (audioKey (vs.length + 1)) (dictSet (txt "audio") (vs.length + 1) s.file.counters) (by
    rw [if_pos (show (txt "[]").isSuffixOf (txt "audio[]") = true by decide)]
    simp only
    rw [show (txt "audio[]").take ((txt "audio[]").length - 2) = txt "audio" by decide, hcount]
    rfl)
  simp only at hstep
  rw [show withHeader ⟨txt "Metadata", filled env f⟩ (some (txt "Audio")) = ⟨txt "Audio", filled env f⟩ by rw [withHeader, if_neg (by decide)]] at hstep
  have hnot : audioKey (vs.length + 1) ∉ s.file.groups.keys := by
    rw [← items_keys ha.dict]
    intro c
    obtain ⟨j, hj, e⟩ := Streams.keys vs 1 _ ha.items _ c
    have := audioKey_inj e
    omega
  obtain ⟨g, g1, g2, g3⟩ := append_ok s.file.groups ha.dict (audioKey (vs.length + 1)) ⟨txt "Audio", filled env f⟩ hnot
  rw [g1] at hstep
  simp only at hstep
  have hkey : headerStep cfg env s (some v) = .ok ⟨⟨s.file.common, g, dictSet (txt "audio") (vs.length + 1) s.file.counters⟩, quotientStep s.quotient ⟨txt "Metadata", filled env f⟩⟩ :=
    header_eq cfg env s v _ _ true h1 hstep
  refine ⟨_, hkey, ?_, ?_, ?_, ?_, ?_, ?_⟩
  · exact g2
  · simp only
    rw [g3, Nat.add_comm]
    refine Streams.snoc v _ ⟨rfl, ?_, ?_, ?_, ?_, ?_⟩ vs 1 _ ha.items
    · exact hcomp
    · rw [told_filled env _ f _ _ (reg_sampleRate env), f2]
    · rw [told_filled env _ f _ _ (reg_channels env), f3]
    · rw [told_filled env _ f _ _ (reg_version env), f4]
      rfl
    · rw [told_filled env _ f _ _ (reg_bitRate env), f5]
  · intro p hp
    simp only [find_dictSet, if_pos] at hp
    cases hp
    simp
  · intro hp
    simp only [find_dictSet, if_pos] at hp
    cases hp
  · exact ha.common
  · simp only
    rw [firstRate_snoc, ← ha.quotient]
    have hfirst := first_filled env (txt "Metadata") f "sample_rate" _ (reg_sampleRate env)
    unfold quotientStep
    rw [hfirst]
    have : (f "sample_rate").head?.map Item.value = (ranged 1000 192000 v.rate).head? := by rw [← f2, List.head?_map]
    rw [this]
    unfold ranged
    by_cases hr : 1000 ≤ v.rate ∧ v.rate ≤ 192000
    · rw [if_pos hr, if_pos hr]
      cases s.quotient <;> rfl
    · rw [if_neg hr, if_neg hr]
      cases s.quotient <;> rfl

/-- The comments of the pages looked at have dates that can be told. -/
def PagesDates (env : Env) (upper : Text → Text) (ps : List PageInfo) : Prop := ∀ p ∈ ps, ∀ v items, p.comment = some (v, items) → GoodDates env upper items

theorem no_duration (upper : Text → Text) (vendor : Option Text) (items : List Text) : ((assignments upper vendor items).flatMap single).filter (fun p => p.1 = "duration") = [] := by
  rw [single_filter "duration" (by decide), List.filter_eq_nil_iff]
  intro p hp
  rcases List.mem_cons.1 hp with rfl | hp
  · simp
  · obtain ⟨t, ht, hc⟩ := List.mem_filterMap.1 hp
    obtain ⟨a, x⟩ := p
    obtain ⟨v, rfl, hv⟩ := (C160_comment upper t a x).mp hc
    simp only [decide_eq_true_eq]
    rintro rfl
    rcases attrs_all upper t _ v hv with h | h | h | h <;> exact absurd h (by decide)

theorem comment_after (cfg : Config) (env : Env) (hw : Writes env) (hd : WritesDays env) (upper : Text → Text) (h : Text) (vs : List VorbisHeader) (s : State) (ha : After cfg env h vs s)
    (c : Option (Option Text × List Text)) (hc : ∀ v items, c = some (v, items) → GoodDates env upper items) : After cfg env h vs (commentStep cfg upper s c) := by
  cases c with
  | none => exact ha
  | some p =>
    obtain ⟨v, items⟩ := p
    obtain ⟨g, g1, g2, g3⟩ := ha.common
    obtain ⟨g', h1, h2, h3⟩ := comments_core cfg env hw hd upper h g g2 v items (hc v items rfl) []
    rw [List.append_nil] at h1
    refine ⟨ha.dict, ha.items, ha.counters, ha.counters', ⟨g', ?_, h2, ?_⟩, ha.quotient⟩
    · rw [commentStep]
      simp only
      rw [g1, h1]
      rfl
    · rw [h3, valsFor, no_duration]
      exact g3

theorem run_after (cfg : Config) (env : Env) (hw : Writes env) (hd : WritesDays env) (hv : WritesAudio env) (upper : Text → Text) (h : Text) : ∀ (ps : List PageInfo) (vs : List VorbisHeader) (s : State),
    PagesDates env upper ps → After cfg env h vs s → ∃ s', runPages cfg env upper ps s = .ok s' ∧ After cfg env h (vs ++ ps.filterMap PageInfo.vorbis) s'
  | [], vs, s, _, ha => ⟨s, rfl, by simpa using ha⟩
  | p :: ps, vs, s, hp, ha => by
    have hp' : PagesDates env upper ps := fun q hq => hp q (List.mem_cons_of_mem _ hq)
    rw [runPages, pageStep]
    cases hvo : p.vorbis with
    | none =>
      rw [List.filterMap_cons_none hvo]
      exact run_after cfg env hw hd hv upper h ps vs _ hp' (comment_after cfg env hw hd upper h vs s ha p.comment (hp p (List.mem_cons_self ..)))
    | some v =>
      obtain ⟨s', h1, h2⟩ := header_after cfg env hv h vs s ha v
      rw [List.filterMap_cons_some hvo, h1]
      have := run_after cfg env hw hd hv upper h ps (vs ++ [v]) _ hp' (comment_after cfg env hw hd upper h _ s' h2 p.comment (hp p (List.mem_cons_self ..)))
      rw [List.append_assoc] at this
      exact this

theorem pages_after (cfg : Config) (env : Env) (hw : Writes env) (hd : WritesDays env) (hv : WritesAudio env) (upper : Text → Text) (ps : List (Option PageInfo)) (hp : PagesDates env upper (looked ps)) :
    ∃ s, pages cfg env upper 0 ps ⟨⟨Metadata.new env (txt "Common"), Dict.empty, []⟩, none⟩ = .ok s ∧ After cfg env (txt "Common") (headersOf ps) s := by
  rw [pages_run]
  have := run_after cfg env hw hd hv upper (txt "Common") (looked ps) [] ⟨⟨Metadata.new env (txt "Common"), Dict.empty, []⟩, none⟩ hp
    ⟨DInv_empty, rfl, by simp, by simp, ⟨fun _ => [], by rw [filled_nil]; rfl, by simp, rfl⟩, rfl⟩
  rw [List.nil_append] at this
  exact this

/-- The playing time that is told: a millisecond to 365 days. -/
def timeTold (us : Int) : List Value := if 1000 ≤ us ∧ us ≤ 31536000000000 then [.duration us] else []

theorem duration_set (cfg : Config) (env : Env) (hv : WritesAudio env) (h : Text) (g : String → List Item) (hg : g "duration" = []) (us : Int) :
    ∃ vs, vs.map Item.value = timeTold us ∧ (⟨h, filled env g⟩ : Metadata).set cfg "duration" (.value (.duration us)) = .ok ⟨h, filled env (Function.update g "duration" vs)⟩ := by
  obtain ⟨t, ht⟩ := hv.duration us
  have hf : Filter.call durationFilter (.duration us) = .ok (decide (1000 ≤ us ∧ us ≤ 31536000000000)) := by
    simp only [durationFilter, Filter.call]
    congr 1
    by_cases a : us < 1000 <;> by_cases b : 31536000000000 < us <;> simp [a, b] <;> omega
  refine ⟨if decide (1000 ≤ us ∧ us ≤ 31536000000000) then [⟨.duration us, t⟩] else [], ?_, ?_⟩
  · unfold timeTold
    by_cases hr : 1000 ≤ us ∧ us ≤ 31536000000000
    · rw [if_pos (decide_eq_true hr), if_pos hr]
      rfl
    · rw [if_neg (by simpa using hr), if_neg hr]
      rfl
  · refine set_filled cfg env h g "duration" _ _ _ (by decide) (reg_duration env) ?_
    rw [hg, Data.add, Data.candidate]
    simp only [Data.convert, bind, Except.bind, Data.typeOk, Value.isInstance, List.any_cons, Bool.true_or, Bool.not_true, Bool.false_eq_true, if_false, contains, Data.filterOk, hf, Data.createItem, ht]
    cases decide (1000 ≤ us ∧ us ≤ 31536000000000) <;> rfl

/-- The streams and the playing time as they are to be told. -/
structure OggTold (cfg : Config) (normal : Bool) (vs : List VorbisHeader) (granule : Option Nat) (m : Multiple) : Prop where
  streams : Streams cfg 1 vs m.groups.items
  /-- The position of the last page over the first rate, to half a microsecond. -/
  duration : ∀ q g, firstRate vs = some q → granule = some g → normal = true → ∃ us : Nat, (g : Rat) * 1000000 / q - 1 / 2 ≤ us ∧ (us : Rat) ≤ (g : Rat) * 1000000 / q + 1 / 2 ∧ toldFor m.common "duration" = timeTold us
  silent : firstRate vs = none ∨ granule = none ∨ normal = false → toldFor m.common "duration" = []

/-- **C160.** An Ogg file tells its Vorbis streams in their order, and as playing time the position of the last page over the first sample rate that is told. -/
theorem C160_file (cfg : Config) (env : Env) (hw : Writes env) (hd : WritesDays env) (hv : WritesAudio env) (upper : Text → Text) (normal : Bool) (ps : List (Option PageInfo)) (granule : Option Nat)
    (hp : PagesDates env upper (looked ps)) : ∃ m, extract cfg env upper normal ps granule = .ok m ∧ OggTold cfg normal (headersOf ps) granule m := by
  obtain ⟨s, h1, ha⟩ := pages_after cfg env hw hd hv upper ps hp
  obtain ⟨g, g1, -, g3⟩ := ha.common
  have hnone : toldFor s.file.common "duration" = [] := by
    rw [g1, told_filled env _ g _ _ (reg_duration env), g3]
    rfl
  rw [extract, h1]
  simp only
  unfold durationStep
  rw [ha.quotient]
  cases hq : firstRate (headersOf ps) with
  | none => exact ⟨s.file, rfl, ha.items, by rw [hq]; simp, fun _ => hnone⟩
  | some q =>
    have hq1 : 1000 ≤ q := by
      have := List.find?_some hq
      simp only [decide_eq_true_eq] at this
      exact this.1
    cases granule with
    | none => exact ⟨s.file, rfl, ha.items, by simp, fun _ => hnone⟩
    | some gr =>
      simp only
      cases normal with
      | false => exact ⟨s.file, rfl, ha.items, by simp, fun _ => hnone⟩
      | true =>
        rw [if_pos (by simp; omega)]
        obtain ⟨vs, v1, v2⟩ := duration_set cfg env hv (txt "Common") g g3 (durationOf gr q)
        rw [g1, v2]
        refine ⟨⟨_, s.file.groups, s.file.counters⟩, rfl, ha.items, ?_, ?_⟩
        · intro q' g' e1 e2 _
          rw [hq] at e1
          simp only [Option.some.injEq] at e1 e2
          subst e1 e2
          have := Hachoir.Time.roundHalfEven_rat (gr * 1000000) q (by omega)
          push_cast at this
          refine ⟨_, this.1, this.2, ?_⟩
          rw [told_filled env _ _ _ _ (reg_duration env), Function.update_self, v1]
          rfl
        · rw [hq]
          simp

/-! ### Examples -/

/-- Upper case of ASCII letters. -/
def asciiUpper (t : Text) : Text := t.map fun c => if 97 ≤ c ∧ c ≤ 122 then c - 32 else c

def commentsExample : List Text := [txt "Artist=Ann", txt "no comment", txt "artist=Bob", txt "TRACKNUMBER=3/12", txt "x=y", txt "=hello = world"]

example : TextsFor asciiUpper "artist" commentsExample [txt "Ann", txt "Bob"] := by
  have hc : ∀ t v, IsComment asciiUpper t "artist" v ↔ comment asciiUpper t = some ("artist", .value (.text v)) := fun t v => by
    rw [C160_comment]
    simp
  refine .take _ _ _ _ ((hc _ _).mpr (by decide +kernel)) (.skip _ _ _ (fun v h => ?_) (.take _ _ _ _ ((hc _ _).mpr (by decide +kernel)) (.skip _ _ _ (fun v h => ?_) (.skip _ _ _ (fun v h => ?_)
    (.skip _ _ _ (fun v h => ?_) .nil)))))
  · have := (hc _ _).mp h
    rw [show comment asciiUpper (txt "no comment") = none by decide +kernel] at this
    cases this
  · have := (hc _ _).mp h
    rw [show comment asciiUpper (txt "TRACKNUMBER=3/12") = some ("track_number", .value (.text (txt "3/12"))) by decide +kernel] at this
    simp at this
  · have := (hc _ _).mp h
    rw [show comment asciiUpper (txt "x=y") = none by decide +kernel] at this
    cases this
  · have := (hc _ _).mp h
    rw [show comment asciiUpper (txt "=hello = world") = some ("comment", .value (.text (txt "hello = world"))) by decide +kernel] at this
    simp at this

example : TextsApart (txt "Ann") (txt "Bob") := by constructor <;> decide
example : IsNumber (txt "12") ∧ writtenValue (txt "12") = 12 := ⟨⟨by decide, by decide⟩, by decide +kernel⟩
example : firstRate [⟨0, 2, 44100, 128000⟩] = some 44100 := by decide +kernel
example : headersOf [some ⟨some ⟨0, 2, 44100, 128000⟩, none⟩, none, none, none, some ⟨some ⟨0, 1, 8000, 0⟩, none⟩, some ⟨some ⟨0, 1, 9000, 0⟩, none⟩] = [⟨0, 2, 44100, 128000⟩, ⟨0, 1, 8000, 0⟩] := rfl

end Hachoir.Props
