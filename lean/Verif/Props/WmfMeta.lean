import Verif.Metadata.Wmf
import Verif.Props.IsoMeta

/-!
# C199: what is told of Windows metafiles
-/

namespace Hachoir.Props
open Hachoir Hachoir.Metadata

/-! ### Specification -/

/-- A number that is told if it is in its range. -/
def pictureNumber (lo hi n : Int) : List Value := if lo ≤ n ∧ n ≤ hi then [.num (.int n)] else []

/-- `humanPixelSize` raises for no number. -/
def WritesPixels (env : Env) : Prop := ∀ n : Int, ∃ t, env.handler "humanPixelSize" (.num (.int n)) = .ok t

/-- A text that is told if it is not blank. -/
def pictureText (cfg : Config) (t : Text) : List Value := if normalizeString cfg t = [] then [] else [.text (toldName cfg t)]

/-! ### Numbers -/

theorem int_filter (lo hi n : Int) : Filter.call (.number (some (.int lo)) (some (.int hi))) (.num (.int n)) = .ok (decide (lo ≤ n ∧ n ≤ hi)) := by
  simp only [Filter.call, below, above, Num.toFlt, Flt.lt]
  congr 1
  have h1 : ((Int.cast n : Rat) < (Int.cast lo : Rat)) ↔ n < lo := Int.cast_lt
  have h2 : ((Int.cast hi : Rat) < (Int.cast n : Rat)) ↔ hi < n := Int.cast_lt
  simp only [h1, h2]
  by_cases a : lo ≤ n <;> by_cases b : n ≤ hi <;> simp [a, b, Int.lt_of_not_ge, Int.not_lt.2]

theorem picture_vals (cfg : Config) (env : Env) (k : String) (lo hi : Int) (d0 : Data) (hd : (registerAllItems env).find? (fun d => d.key = k) = some d0) (ht : d0.type = some [.int])
    (hc : d0.conversion = none) (hf : d0.filter = some (.number (some (.int lo)) (some (.int hi)))) (hi' : ∀ (n : Int) (vs : List Item), ∃ t, ({ d0 with values := vs } : Data).createItem (.num (.int n)) none = .ok ⟨.num (.int n), t⟩)
    (n : Int) : Tame cfg env k (.value (.num (.int n))) ∧ (addVals cfg env k (.value (.num (.int n))) []).map Item.value = pictureNumber lo hi n := by
  have key : ∀ vs : List Item, ({ d0 with values := vs } : Data).candidate cfg (.value (.num (.int n))) = .ok (some (.num (.int n), none)) := by
    intro vs
    rw [Data.candidate]
    simp only [Data.convert, hc, bind, Except.bind, Data.typeOk, ht]
    rfl
  constructor
  · obtain ⟨t, h⟩ := hi' n []
    refine ⟨d0, hd, fun vs => .inr ⟨_, _, key vs, fun _ _ h => (by cases h), ?_⟩⟩
    obtain ⟨t, h⟩ := hi' n vs
    exact ⟨_, h⟩
  · unfold addVals
    rw [hd]
    simp only
    obtain ⟨t, h⟩ := hi' n []
    have hfo : ({ d0 with values := [] } : Data).filterOk (.num (.int n)) = .ok (decide (lo ≤ n ∧ n ≤ hi)) := by
      rw [Data.filterOk]
      simp only [hf]
      exact int_filter lo hi n
    rw [Data.add, key []]
    simp only [bind, Except.bind, contains, hfo, h]
    by_cases hr : lo ≤ n ∧ n ≤ hi
    · rw [decide_eq_true hr, pictureNumber, if_pos hr]
      rfl
    · rw [decide_eq_false hr, pictureNumber, if_neg hr]
      rfl

/-- The numbers told of pictures, with their largest values. -/
def pictureAttrs : List (String × Int) := [("width", 20000), ("height", 20000), ("nb_colors", 16777216), ("bits_per_pixel", 256)]

theorem picture_attr (cfg : Config) (env : Env) (hw : WritesPixels env) (k : String) (hi : Int) (hk : (k, hi) ∈ pictureAttrs) (n : Int) :
    (∃ d0, (registerAllItems env).find? (fun d => d.key = k) = some d0) ∧ Tame cfg env k (.value (.num (.int n))) ∧ (addVals cfg env k (.value (.num (.int n))) []).map Item.value = pictureNumber 1 hi n := by
  simp only [pictureAttrs, List.mem_cons, List.not_mem_nil, or_false, Prod.mk.injEq] at hk
  rcases hk with ⟨rfl, rfl⟩ | ⟨rfl, rfl⟩ | ⟨rfl, rfl⟩ | ⟨rfl, rfl⟩
  · have h : (registerAllItems env).find? (fun d => d.key = "width") = some { key := "width", priority := 301, description := "Image width", type := some [.int], filter := some (.number (some (.int 1)) (some (.int 20000))), textHandler := some (env.handler "humanPixelSize"), plainText := Metadata.plainText env } := by
      simp [registerAllItems]
    exact ⟨⟨_, h⟩, picture_vals cfg env _ 1 _ _ h rfl rfl rfl (fun n vs => by obtain ⟨t, ht⟩ := hw n; exact ⟨t, by simp only [Data.createItem, ht, bind, Except.bind]⟩) n⟩
  · have h : (registerAllItems env).find? (fun d => d.key = "height") = some { key := "height", priority := 302, description := "Image height", type := some [.int], filter := some (.number (some (.int 1)) (some (.int 20000))), textHandler := some (env.handler "humanPixelSize"), plainText := Metadata.plainText env } := by
      simp [registerAllItems]
    exact ⟨⟨_, h⟩, picture_vals cfg env _ 1 _ _ h rfl rfl rfl (fun n vs => by obtain ⟨t, ht⟩ := hw n; exact ⟨t, by simp only [Data.createItem, ht, bind, Except.bind]⟩) n⟩
  · have h : (registerAllItems env).find? (fun d => d.key = "nb_colors") = some { key := "nb_colors", priority := 307, description := "Number of colors", type := some [.int], filter := some (.number (some (.int 1)) (some (.int 16777216))), plainText := Metadata.plainText env } := by
      simp [registerAllItems]
    exact ⟨⟨_, h⟩, picture_vals cfg env _ 1 _ _ h rfl rfl rfl (fun n vs => ⟨_, rfl⟩) n⟩
  · have h : (registerAllItems env).find? (fun d => d.key = "bits_per_pixel") = some { key := "bits_per_pixel", priority := 308, description := "Bits/pixel", type := some [.int], filter := some (.number (some (.int 1)) (some (.int 256))), plainText := Metadata.plainText env } := by
      simp [registerAllItems]
    exact ⟨⟨_, h⟩, picture_vals cfg env _ 1 _ _ h rfl rfl rfl (fun n vs => ⟨_, rfl⟩) n⟩

theorem meta_tame (cfg : Config) (env : Env) (hw : WritesPixels env) (decode : Bytes → Text) (w : Wmf.Kind) : ∀ p ∈ Wmf.assignments decode w, single p = [p] ∧ Tame cfg env p.1 p.2 := by
  have hn : ∀ k hi, (k, hi) ∈ pictureAttrs → k ≠ "track_number" → ∀ n, single (Wmf.num k n) = [Wmf.num k n] ∧ Tame cfg env (Wmf.num k n).1 (Wmf.num k n).2 :=
    fun k hi hk hne n => ⟨single_ne _ _ hne, (picture_attr cfg env hw k hi hk n).2.1⟩
  have h1 := hn "width" 20000 (by decide) (by decide)
  have h2 := hn "height" 20000 (by decide) (by decide)
  have h3 := hn "nb_colors" 16777216 (by decide) (by decide)
  have h4 := hn "bits_per_pixel" 256 (by decide) (by decide)
  intro p hp
  cases w with
  | plain => cases hp
  | apm h =>
    simp only [Wmf.assignments, List.mem_cons, List.not_mem_nil, or_false] at hp
    rcases hp with rfl | rfl | rfl
    · exact h1 _
    · exact h2 _
    · exact h4 _
  | emf h =>
    simp only [Wmf.assignments, List.mem_append, List.mem_cons, List.not_mem_nil, or_false] at hp
    rcases hp with (hp | hp) | rfl | rfl
    · cases hd : h.description with
      | none => rw [hd] at hp; cases hp
      | some b =>
        rw [hd] at hp
        simp only [Wmf.texts, List.mem_cons, List.mem_map] at hp
        rcases hp with rfl | ⟨t, -, rfl⟩
        · exact ⟨single_ne _ _ (by decide), tame_text cfg env "producer" (by decide) _⟩
        · exact ⟨single_ne _ _ (by decide), tame_text cfg env "title" (by decide) _⟩
    · unfold Wmf.colors at hp
      split at hp
      · simp only [List.mem_cons, List.not_mem_nil, or_false] at hp
        rcases hp with rfl | rfl
        · exact h3 _
        · exact h4 _
      · rw [List.mem_singleton] at hp
        subst hp
        exact h4 _
    · exact h1 _
    · exact h2 _

theorem meta_core (cfg : Config) (env : Env) (hw : WritesPixels env) (decode : Bytes → Text) (w : Wmf.Kind) (k : String) (d0 : Data) (hd : (registerAllItems env).find? (fun d => d.key = k) = some d0) :
    toldFor (Wmf.extract cfg env decode w) k = (valsFor cfg env k (Wmf.assignments decode w) []).map Item.value := by
  rw [Wmf.extract, show Metadata.new env (txt "Metadata") = ⟨txt "Metadata", filled env fun _ => []⟩ by rw [filled_nil]; rfl]
  obtain ⟨g, h1, -, h3⟩ := run_tame cfg env (txt "Metadata") (Wmf.assignments decode w) (fun _ => []) (by simp) (meta_tame cfg env hw decode w)
  rw [h1, told_filled env _ g k d0 hd, h3]

/-- One number is assigned to the key. -/
theorem meta_number (cfg : Config) (env : Env) (hw : WritesPixels env) (decode : Bytes → Text) (w : Wmf.Kind) (k : String) (hi : Int) (hk : (k, hi) ∈ pictureAttrs) (n : Int)
    (h : (Wmf.assignments decode w).filter (fun p => p.1 = k) = [Wmf.num k n]) : toldFor (Wmf.extract cfg env decode w) k = pictureNumber 1 hi n := by
  obtain ⟨⟨d0, hd⟩, -, ha⟩ := picture_attr cfg env hw k hi hk n
  rw [meta_core cfg env hw decode w k d0 hd, valsFor, h]
  exact ha

/-- Nothing is assigned to the key. -/
theorem meta_nothing (cfg : Config) (env : Env) (hw : WritesPixels env) (decode : Bytes → Text) (w : Wmf.Kind) (k : String)
    (h : (Wmf.assignments decode w).filter (fun p => p.1 = k) = []) : toldFor (Wmf.extract cfg env decode w) k = [] := by
  cases hd : (registerAllItems env).find? (fun d => d.key = k) with
  | some d0 => rw [meta_core cfg env hw decode w k d0 hd, valsFor, h]; rfl
  | none =>
    rw [Wmf.extract, show Metadata.new env (txt "Metadata") = ⟨txt "Metadata", filled env fun _ => []⟩ by rw [filled_nil]; rfl]
    obtain ⟨g, h1, -, -⟩ := run_tame cfg env (txt "Metadata") (Wmf.assignments decode w) (fun _ => []) (by simp) (meta_tame cfg env hw decode w)
    have e : ((fun d : Data => decide (d.key = k)) ∘ fun d : Data => ({ d with values := g d.key } : Data)) = fun d => decide (d.key = k) := rfl
    rw [h1, toldFor, filled]
    simp only
    rw [List.find?_map, e, hd]
    rfl

/-- **C199** A file with the header of Aldus: the size of its rectangle, if it is in the range, and 24 bits per pixel. -/
theorem C199_apm (cfg : Config) (env : Env) (hw : WritesPixels env) (decode : Bytes → Text) (key handle left top right bottom : Int) (more : List Int) :
    let m := Wmf.extract cfg env decode (.apm (key :: handle :: left :: top :: right :: bottom :: more))
    toldFor m "width" = pictureNumber 1 20000 (right - left) ∧ toldFor m "height" = pictureNumber 1 20000 (bottom - top) ∧ toldFor m "bits_per_pixel" = [.num (.int 24)] :=
  ⟨meta_number cfg env hw decode _ "width" 20000 (by decide) _ rfl, meta_number cfg env hw decode _ "height" 20000 (by decide) _ rfl,
    meta_number cfg env hw decode _ "bits_per_pixel" 256 (by decide) 24 rfl⟩

/-- **C199** Nothing is told of a file without a header of one of the two kinds. -/
theorem C199_plain (cfg : Config) (env : Env) (hw : WritesPixels env) (decode : Bytes → Text) (k : String) : toldFor (Wmf.extract cfg env decode .plain) k = [] :=
  meta_nothing cfg env hw decode .plain k rfl

theorem metafile_texts_filter (decode : Bytes → Text) (d : Option Bytes) (k : String) (h1 : k ≠ "producer") (h2 : k ≠ "title") : (Wmf.texts decode d).filter (fun p => p.1 = k) = [] := by
  rw [List.filter_eq_nil_iff]
  intro p hp
  cases d with
  | none => cases hp
  | some b =>
    simp only [Wmf.texts, List.mem_cons, List.mem_map] at hp
    rcases hp with rfl | ⟨t, -, rfl⟩
    · simpa using h1.symm
    · simpa using h2.symm

/-- **C199** An EMF file: the size of the device, the count of colours of its palette with 8 bits per pixel, and 24 bits per pixel if there is none. -/
theorem C199_emf (cfg : Config) (env : Env) (hw : WritesPixels env) (decode : Bytes → Text) (front more : List Int) (hl : front.length = 19) (colors width height : Int) (d : Option Bytes) (pad : Bytes) :
    let m := Wmf.extract cfg env decode (.emf ⟨front ++ colors :: width :: height :: more, d, pad⟩)
    toldFor m "width" = pictureNumber 1 20000 width ∧ toldFor m "height" = pictureNumber 1 20000 height ∧ toldFor m "nb_colors" = pictureNumber 1 16777216 colors ∧
      toldFor m "bits_per_pixel" = [.num (.int (if colors = 0 then 24 else 8))] := by
  have g0 : (front ++ colors :: width :: height :: more).getD 19 0 = colors := by rw [List.getD_eq_getElem?_getD, List.getElem?_append_right (by omega), hl]; rfl
  have g1 : (front ++ colors :: width :: height :: more).getD 20 0 = width := by rw [List.getD_eq_getElem?_getD, List.getElem?_append_right (by omega), hl]; rfl
  have g2 : (front ++ colors :: width :: height :: more).getD 21 0 = height := by rw [List.getD_eq_getElem?_getD, List.getElem?_append_right (by omega), hl]; rfl
  have key : ∀ k : String, k ≠ "producer" → k ≠ "title" → (Wmf.assignments decode (.emf ⟨front ++ colors :: width :: height :: more, d, pad⟩)).filter (fun p => p.1 = k) =
      (Wmf.colors colors ++ [Wmf.num "width" width, Wmf.num "height" height]).filter (fun p => p.1 = k) := by
    intro k h1 h2
    simp only [Wmf.assignments]
    rw [g0, g1, g2, List.append_assoc, List.filter_append, metafile_texts_filter decode d k h1 h2, List.nil_append]
  refine ⟨meta_number cfg env hw decode _ "width" 20000 (by decide) _ ?_, meta_number cfg env hw decode _ "height" 20000 (by decide) _ ?_, ?_, ?_⟩
  · rw [key _ (by decide) (by decide), Wmf.colors]
    split <;> rfl
  · rw [key _ (by decide) (by decide), Wmf.colors]
    split <;> rfl
  · by_cases h0 : colors = 0
    · rw [meta_nothing cfg env hw decode _ "nb_colors" (by rw [key _ (by decide) (by decide), Wmf.colors, if_neg (by simpa using h0)]; rfl), h0]
      rfl
    · exact meta_number cfg env hw decode _ "nb_colors" 16777216 (by decide) _ (by rw [key _ (by decide) (by decide), Wmf.colors, if_pos h0]; rfl)
  · by_cases h0 : colors = 0
    · rw [meta_number cfg env hw decode _ "bits_per_pixel" 256 (by decide) 24 (by rw [key _ (by decide) (by decide), Wmf.colors, if_neg (by simpa using h0)]; rfl), if_pos h0]
      rfl
    · rw [meta_number cfg env hw decode _ "bits_per_pixel" 256 (by decide) 8 (by rw [key _ (by decide) (by decide), Wmf.colors, if_pos h0]; rfl), if_neg h0]
      rfl

/-! ### Texts -/

theorem text_vals (cfg : Config) (env : Env) (k : String) (hk : k ∈ textAttrs) (t : Text) : (addVals cfg env k (.value (.text t)) []).map Item.value = pictureText cfg t := by
  by_cases hb : normalizeString cfg t = []
  · rw [add_blank_vals cfg env k hk t hb, pictureText, if_pos hb]
    rfl
  · have := fold_apart cfg env k hk [t] [] (by simpa using hb) (by simp)
    rw [List.map_nil, List.nil_append, List.map_cons, List.map_nil, List.foldl_cons, List.foldl_nil] at this
    simp only at this
    rw [this, pictureText, if_neg hb]
    rfl

theorem meta_text (cfg : Config) (env : Env) (hw : WritesPixels env) (decode : Bytes → Text) (w : Wmf.Kind) (k : String) (hk : k ∈ textAttrs) (t : Text)
    (h : (Wmf.assignments decode w).filter (fun p => p.1 = k) = [(k, .value (.text t))]) : toldFor (Wmf.extract cfg env decode w) k = pictureText cfg t := by
  obtain ⟨d0, hd, -⟩ := text_attr env k hk
  rw [meta_core cfg env hw decode w k d0 hd, valsFor, h]
  exact text_vals cfg env k hk t

theorem numbers_filter (ns : List Int) (k : String) (hk : k = "producer" ∨ k = "title") :
    (Wmf.colors (ns.getD 19 0) ++ [Wmf.num "width" (ns.getD 20 0), Wmf.num "height" (ns.getD 21 0)]).filter (fun p => p.1 = k) = [] := by
  rw [Wmf.colors]
  rcases hk with rfl | rfl <;> split <;> rfl

theorem stripped_text (t before after : Text) (hb : ∀ c ∈ before, c = 0 ∨ c = 32) (ha : ∀ c ∈ after, c = 0 ∨ c = 32) (h1 : ∀ c ∈ t.head?, c ≠ 0 ∧ c ≠ 32) (h2 : ∀ c ∈ t.getLast?, c ≠ 0 ∧ c ≠ 32) :
    Field.stripText (fun c => c == 0 || c == 32) (before ++ t ++ after) = t := by
  refine strip_text _ _ _ _ ?_ ?_ ?_ ?_
  · intro c hc; simpa using hb c hc
  · intro c hc; simpa using ha c hc
  · intro c hc; simpa using h1 c hc
  · intro c hc; simpa using h2 c hc

/-- **C199** The description of an EMF file: what is before the first null character is told as producer, what is behind it as title, without null characters and blanks around the whole, if they are not blank. -/
theorem C199_texts (cfg : Config) (env : Env) (hw : WritesPixels env) (decode : Bytes → Text) (ns : List Int) (b pad : Bytes) (before producer title after : Text) (hd : decode b = before ++ (producer ++ 0 :: title) ++ after)
    (hb : ∀ c ∈ before, c = 0 ∨ c = 32) (ha : ∀ c ∈ after, c = 0 ∨ c = 32) (hp : 0 ∉ producer) (h1 : ∀ c ∈ producer.head?, c ≠ 32) (hp' : producer ≠ []) (h2 : ∀ c ∈ title.getLast?, c ≠ 0 ∧ c ≠ 32) (ht : title ≠ []) :
    toldFor (Wmf.extract cfg env decode (.emf ⟨ns, some b, pad⟩)) "producer" = pictureText cfg producer ∧ toldFor (Wmf.extract cfg env decode (.emf ⟨ns, some b, pad⟩)) "title" = pictureText cfg title := by
  have hne : ∀ x ∈ producer, (decide (x ≠ 0)) = true := fun x hx => by
    rw [decide_eq_true_eq]
    rintro rfl
    exact hp hx
  have e : Wmf.texts decode (some b) = [("producer", .value (.text producer)), ("title", .value (.text title))] := by
    rw [Wmf.texts, Wmf.descriptionText, hd, stripped_text _ _ _ hb ha ?_ ?_, Wmf.split, if_pos (by simp), List.takeWhile_append_of_pos hne, List.dropWhile_append_of_pos hne]
    · simp
    · intro c hc
      cases producer with
      | nil => exact absurd rfl hp'
      | cons x r =>
        simp only [List.cons_append, List.head?_cons, Option.mem_some_iff] at hc
        subst hc
        exact ⟨fun e => hp (by rw [e]; exact List.mem_cons_self ..), h1 _ rfl⟩
    · intro c hc
      refine h2 c ?_
      cases title with
      | nil => exact absurd rfl ht
      | cons x r => simpa [List.getLast?_append, List.getLast?_cons_cons] using hc
  have key : ∀ k : String, k = "producer" ∨ k = "title" → (Wmf.assignments decode (.emf ⟨ns, some b, pad⟩)).filter (fun p => p.1 = k) =
      [(("producer", .value (.text producer)) : String × Arg), ("title", .value (.text title))].filter fun p => p.1 = k := by
    intro k hk
    simp only [Wmf.assignments]
    rw [List.append_assoc, List.filter_append, numbers_filter ns k hk, e, List.append_nil]
  exact ⟨meta_text cfg env hw decode _ "producer" (by decide) producer ((key _ (.inl rfl)).trans rfl), meta_text cfg env hw decode _ "title" (by decide) title ((key _ (.inr rfl)).trans rfl)⟩

/-- **C199** A description without a null character is told as producer, and no title is told. -/
theorem C199_producer (cfg : Config) (env : Env) (hw : WritesPixels env) (decode : Bytes → Text) (ns : List Int) (b pad : Bytes) (before producer after : Text) (hd : decode b = before ++ producer ++ after)
    (hb : ∀ c ∈ before, c = 0 ∨ c = 32) (ha : ∀ c ∈ after, c = 0 ∨ c = 32) (hp : 0 ∉ producer) (h1 : ∀ c ∈ producer.head?, c ≠ 32) (h2 : ∀ c ∈ producer.getLast?, c ≠ 32) :
    toldFor (Wmf.extract cfg env decode (.emf ⟨ns, some b, pad⟩)) "producer" = pictureText cfg producer ∧ toldFor (Wmf.extract cfg env decode (.emf ⟨ns, some b, pad⟩)) "title" = [] := by
  have e : Wmf.texts decode (some b) = [("producer", .value (.text producer))] := by
    rw [Wmf.texts, Wmf.descriptionText, hd, stripped_text _ _ _ hb ha (fun c hc => ⟨fun e => hp (e ▸ List.mem_of_mem_head? hc), h1 c hc⟩) (fun c hc => ⟨fun e => hp (e ▸ List.mem_of_getLast? hc), h2 c hc⟩),
      Wmf.split, if_neg hp]
    rfl
  have key : ∀ k : String, k = "producer" ∨ k = "title" → (Wmf.assignments decode (.emf ⟨ns, some b, pad⟩)).filter (fun p => p.1 = k) =
      [(("producer", .value (.text producer)) : String × Arg)].filter fun p => p.1 = k := by
    intro k hk
    simp only [Wmf.assignments]
    rw [List.append_assoc, List.filter_append, numbers_filter ns k hk, e, List.append_nil]
  exact ⟨meta_text cfg env hw decode _ "producer" (by decide) producer ((key _ (.inl rfl)).trans rfl), meta_nothing cfg env hw decode _ "title" ((key _ (.inr rfl)).trans rfl)⟩

/-- **C199** (disagreement): the size told of an EMF file is that of the device: pictures of any bounds are told alike. -/
theorem C199_device (cfg : Config) (env : Env) (hw : WritesPixels env) (decode : Bytes → Text) (front front' more : List Int) (hl : front.length = 19) (hl' : front'.length = 19) (colors width height : Int) (d : Option Bytes) (pad : Bytes)
    (k : String) (hk : k = "width" ∨ k = "height") :
    toldFor (Wmf.extract cfg env decode (.emf ⟨front ++ colors :: width :: height :: more, d, pad⟩)) k = toldFor (Wmf.extract cfg env decode (.emf ⟨front' ++ colors :: width :: height :: more, d, pad⟩)) k := by
  have a := C199_emf cfg env hw decode front more hl colors width height d pad
  have b := C199_emf cfg env hw decode front' more hl' colors width height d pad
  rcases hk with rfl | rfl
  · exact a.1.trans b.1.symm
  · exact a.2.1.trans b.2.1.symm

/-! ### Examples -/

/-- A rectangle from (-10, 20) to (630, 500), in units of which 1440 are an inch. -/
example (cfg : Config) (env : Env) (hw : WritesPixels env) (decode : Bytes → Text) :
    toldFor (Wmf.extract cfg env decode (.apm [0x9AC6CDD7, 0, -10, 20, 630, 500, 1440, 0, 0])) "width" = [.num (.int 640)] :=
  (C199_apm cfg env hw decode 0x9AC6CDD7 0 (-10) 20 630 500 [1440, 0, 0]).1.trans rfl

/-- A rectangle written from right to left has no width. -/
example (cfg : Config) (env : Env) (hw : WritesPixels env) (decode : Bytes → Text) :
    toldFor (Wmf.extract cfg env decode (.apm [0x9AC6CDD7, 0, 630, 20, -10, 500, 1440, 0, 0])) "width" = [] :=
  (C199_apm cfg env hw decode 0x9AC6CDD7 0 630 20 (-10) 500 [1440, 0, 0]).1.trans rfl

example (cfg : Config) (env : Env) (hw : WritesPixels env) (decode : Bytes → Text) (ns : List Int) (h : decode [1] = txt "Draw" ++ [0] ++ txt "House" ++ [0, 0]) :
    toldFor (Wmf.extract cfg env decode (.emf ⟨ns, some [1], []⟩)) "title" = pictureText cfg (txt "House") :=
  (C199_texts cfg env hw decode ns [1] [] [] (txt "Draw") (txt "House") [0, 0] (h.trans (by decide)) (by simp) (by simp) (by decide) (by decide) (by decide) (by decide) (by decide)).2

end Hachoir.Props
