import Verif.Metadata.Archive
import Verif.Props.MetadataExport
import Mathlib.Tactic.Linarith
import Mathlib.Tactic.NormNum

/-!
# C158: files told of archives
-/

namespace Hachoir.Props
open Hachoir Hachoir.Metadata Hachoir.Core Hachoir.Metadata.Archive _root_.Props

/-! ### Specification -/

/-- The values told for a key. -/
def toldFor (m : Metadata) (key : String) : List Value := ((m.data.find? (fun d => d.key = key)).map (fun d => d.values.map Item.value)).getD []

/-- The name that is told: without white space around it, without returns, and cut when it is long. -/
def toldName (cfg : Config) (name : Text) : Text := cutText cfg (normalizeNewline (normalizeString cfg name))

/-- Functions that make texts of sizes, rates and dates do not raise. -/
structure Writes (env : Env) : Prop where
  size : ∀ n : Nat, ∃ t, env.handler "humanFilesize" (.num (.int n)) = .ok t
  rate : ∀ q : Rat, ∃ t, env.handler "humanComprRate" (.num (.float (.fin q))) = .ok t
  date : ∀ d z, ∃ t, env.handler "humanDatetime" (.datetime d z) = .ok t

/-! ### Assignments -/

/-- The registered keys with values. -/
def filled (env : Env) (f : String → List Item) : List Data := (registerAllItems env).map fun d => { d with values := f d.key }

theorem filled_nil (env : Env) : filled env (fun _ => []) = registerAllItems env := by
  rw [filled]
  conv_rhs => rw [← List.map_id (registerAllItems env)]
  refine List.map_congr_left fun d hd => ?_
  have := registry_empty env d hd
  cases d
  simp only [id_eq] at *
  rw [this]

theorem updateKey_map (k : String) (vs : List Item) (f : String → List Item) (g : Data → Except PyErr Data) : ∀ (l : List Data) (d0 : Data), (l.map Data.key).Nodup →
    l.find? (fun d => d.key = k) = some d0 → g { d0 with values := f k } = .ok { d0 with values := vs } →
    updateKey k g (l.map fun d => { d with values := f d.key }) = .ok (l.map fun d => { d with values := (Function.update f k vs) d.key })
  | [], _, _, h, _ => by simp at h
  | d :: l, d0, hn, h, hg => by
    rw [List.map_cons, List.nodup_cons] at hn
    rw [List.map_cons, updateKey]
    by_cases hk : d.key = k
    · rw [List.find?_cons_of_pos (by simpa using hk)] at h
      obtain rfl : d = d0 := by simpa using h
      rw [if_pos (by exact hk)]
      simp only [hk] at hg ⊢
      rw [hg]
      simp only [bind, Except.bind, List.map_cons, hk, Function.update_self]
      congr 2
      refine List.map_congr_left fun e he => ?_
      have : e.key ≠ k := fun c => hn.1 (by rw [hk, ← c]; exact List.mem_map_of_mem he)
      rw [Function.update_of_ne this]
    · rw [List.find?_cons_of_neg (by simpa using hk)] at h
      rw [if_neg (by exact hk), updateKey_map k vs f g l d0 hn.2 h hg]
      simp only [bind, Except.bind, List.map_cons]
      rw [Function.update_of_ne hk]

theorem set_filled (cfg : Config) (env : Env) (h : Text) (f : String → List Item) (k : String) (a : Arg) (d0 : Data) (vs : List Item) (ht : k ≠ "track_number")
    (hd : (registerAllItems env).find? (fun d => d.key = k) = some d0) (ha : ({ d0 with values := f k } : Data).add cfg a = .ok { d0 with values := vs }) :
    (⟨h, filled env f⟩ : Metadata).set cfg k a = .ok ⟨h, filled env (Function.update f k vs)⟩ := by
  have h0 : trackTotal k a = none := by unfold trackTotal; rw [if_neg ht]
  rw [Metadata.set, h0]
  simp only
  rw [Metadata.addTo]
  simp only
  rw [filled, updateKey_map k vs f _ _ d0 (C37_keys env) hd ha]
  rfl

theorem told_filled (env : Env) (h : Text) (f : String → List Item) (k : String) (d0 : Data) (hd : (registerAllItems env).find? (fun d => d.key = k) = some d0) :
    toldFor ⟨h, filled env f⟩ k = (f k).map Item.value := by
  rw [toldFor, filled]
  simp only
  rw [List.find?_map]
  have : (fun d : Data => decide (({ d with values := f d.key } : Data).key = k)) = fun d => decide (d.key = k) := rfl
  have e : ((fun d : Data => decide (d.key = k)) ∘ fun d : Data => ({ d with values := f d.key } : Data)) = fun d => decide (d.key = k) := rfl
  rw [e, hd]
  have hk := List.find?_some hd
  simp only [decide_eq_true_eq] at hk
  simp [hk]

/-- A text that is not blank becomes the only value of a key of texts. -/
theorem add_text (cfg : Config) (d : Data) (t : Text) (hv : d.values = []) (ht : d.type = none ∨ d.type = some [.str]) (hf : d.filter = none) (hc : d.conversion = none) (hb : normalizeString cfg t ≠ []) :
    d.add cfg (.value (.text t)) = .ok { d with values := [⟨.text (toldName cfg t), toldName cfg t⟩] } := by
  have hty : ∀ v, d.typeOk (.text v) = true := by
    intro v
    rcases ht with h | h <;> simp [Data.typeOk, h, Value.isInstance]
  rw [Data.add, Data.candidate]
  simp only [Data.convert, hc, bind, Except.bind, if_neg hb, hty, Bool.not_true, Bool.false_eq_true, if_false, hv, contains, Data.filterOk, hf, placeText, Option.getD_none]
  rfl

/-- A blank text is not told. -/
theorem add_blank (cfg : Config) (d : Data) (t : Text) (hc : d.conversion = none) (hb : normalizeString cfg t = []) : d.add cfg (.value (.text t)) = .ok d := by
  rw [Data.add, Data.candidate]
  simp only [Data.convert, hc, bind, Except.bind, hb, if_true]

theorem add_none (cfg : Config) (d : Data) : d.add cfg (.value .none) = .ok d := by
  rw [Data.add, Data.candidate]
  simp only [bind, Except.bind]

/-- A number becomes the only value, when the filter lets it pass. -/
theorem add_number (cfg : Config) (d : Data) (n : Num) (w : Value → Except PyErr Text) (t : Text) (hv : d.values = []) (hty : d.typeOk (.num n) = true) (hc : d.conversion = none)
    (hw : d.textHandler = some w) (ht : w (.num n) = .ok t) (pass : Bool) (hf : d.filterOk (.num n) = .ok pass) :
    d.add cfg (.value (.num n)) = .ok { d with values := if pass then [⟨.num n, t⟩] else [] } := by
  rw [Data.add, Data.candidate]
  simp only [Data.convert, hc, bind, Except.bind, hty, Bool.not_true, Bool.false_eq_true, if_false, hv, contains, hf, Data.createItem, hw, ht, List.nil_append]
  cases pass
  · simp only [Bool.not_false, if_true, Bool.false_eq_true, if_false]
    cases d
    simp_all
  · rfl

/-- The dates that are told, filter.py:5-6. -/
def dateTold (t : Hachoir.Time.DateTime) : Bool := clock ⟨1850, 1, 1, 0, 0, 0, 0⟩ ≤ clock t && clock t ≤ clock ⟨2030, 12, 31, 0, 0, 0, 0⟩

theorem add_date (cfg : Config) (env : Env) (hw : Writes env) (d : Data) (t : Hachoir.Time.DateTime) (hv : d.values = []) (hty : d.type = some [.datetime, .date]) (hc : d.conversion = some (setDatetime env))
    (hh : d.textHandler = some (env.handler "humanDatetime")) (hf : d.filter = some .datetime) :
    ∃ vs, d.add cfg (.value (.datetime t none)) = .ok { d with values := vs } ∧ vs.map Item.value = if dateTold t then [.datetime t none] else [] := by
  obtain ⟨x, hx⟩ := hw.date t none
  have hty' : d.typeOk (.datetime t none) = true := by simp [Data.typeOk, hty, Value.isInstance]
  have hf' : d.filterOk (.datetime t none) = .ok (dateTold t) := by rw [Data.filterOk, hf]; rfl
  refine ⟨if dateTold t then [⟨.datetime t none, x⟩] else [], ?_, by split <;> rfl⟩
  rw [Data.add, Data.candidate]
  simp only [Data.convert, hc, setDatetime, bind, Except.bind, hty', Bool.not_true, Bool.false_eq_true, if_false, hv, contains, hf', Data.createItem, hh, hx, List.nil_append]
  cases dateTold t
  · simp only [Bool.not_false, if_true, Bool.false_eq_true, if_false]
    cases d
    simp_all
  · rfl

/-- A value of a file: a moment or none. -/
def Moment : Value → Prop
  | .none => True
  | .datetime _ none => True
  | _ => False

/-- What is told of a moment. -/
def momentTold : Value → List Value
  | .datetime t none => if dateTold t then [.datetime t none] else []
  | _ => []

/-! ### ZIP -/

theorem reg_filename (env : Env) : (registerAllItems env).find? (fun d => d.key = "filename") =
    some { key := "filename", priority := 309, description := "File name", type := some [.str], plainText := plainText env } := by
  simp [registerAllItems]

theorem reg_compression (env : Env) : (registerAllItems env).find? (fun d => d.key = "compression") =
    some { key := "compression", priority := 600, description := "Compression", plainText := plainText env } := by
  simp [registerAllItems]

theorem reg_file_size (env : Env) : (registerAllItems env).find? (fun d => d.key = "file_size") =
    some { key := "file_size", priority := 310, description := "File size", type := some [.int], textHandler := some (env.handler "humanFilesize"), plainText := plainText env } := by
  simp [registerAllItems]

theorem reg_compr_size (env : Env) : (registerAllItems env).find? (fun d => d.key = "compr_size") =
    some { key := "compr_size", priority := 312, description := "Compressed file size", type := some [.int], textHandler := some (env.handler "humanFilesize"), plainText := plainText env } := by
  simp [registerAllItems]

theorem reg_compr_rate (env : Env) : (registerAllItems env).find? (fun d => d.key = "compr_rate") =
    some { key := "compr_rate", priority := 313, description := "Compression rate", type := some [.int, .float], filter := some (.number (some (.float (.fin (1152921504606847 / 1152921504606846976)))) (some (.float (.fin 1000)))), textHandler := some (env.handler "humanComprRate"), plainText := plainText env } := by
  simp [registerAllItems]

theorem reg_creation (env : Env) : (registerAllItems env).find? (fun d => d.key = "creation_date") =
    some { key := "creation_date", priority := 500, description := "Creation date", type := some [.datetime, .date], filter := some .datetime, textHandler := some (env.handler "humanDatetime"), conversion := some (setDatetime env), plainText := plainText env } := by
  simp [registerAllItems]

theorem reg_attr (env : Env) : (registerAllItems env).find? (fun d => d.key = "file_attr") =
    some { key := "file_attr", priority := 400, description := "File attributes", plainText := plainText env } := by
  simp [registerAllItems]

section Steps
variable (cfg : Config) (env : Env) (h : Text) (f : String → List Item)

def nameItems (cfg : Config) (t : Text) : List Item := if normalizeString cfg t = [] then [] else [⟨.text (toldName cfg t), toldName cfg t⟩]

theorem set_name (t : Text) (hf : f "filename" = []) :
    (⟨h, filled env f⟩ : Metadata).set cfg "filename" (.value (.text t)) = .ok ⟨h, filled env (Function.update f "filename" (nameItems cfg t))⟩ := by
  by_cases hb : normalizeString cfg t = []
  · refine set_filled cfg env h f "filename" _ _ _ (by decide) (reg_filename env) ?_
    rw [add_blank cfg _ t rfl hb, nameItems, if_pos hb, hf]
  · rw [nameItems, if_neg hb]
    exact set_filled cfg env h f "filename" _ _ _ (by decide) (reg_filename env) (add_text cfg _ t hf (.inr rfl) rfl rfl hb)

theorem set_compression (t : Text) (hf : f "compression" = []) : ∃ vs, vs.map Item.value = (if normalizeString cfg t = [] then [] else [.text (toldName cfg t)]) ∧
    (⟨h, filled env f⟩ : Metadata).set cfg "compression" (.value (.text t)) = .ok ⟨h, filled env (Function.update f "compression" vs)⟩ := by
  by_cases hb : normalizeString cfg t = []
  · refine ⟨[], by rw [if_pos hb]; rfl, set_filled cfg env h f "compression" _ _ _ (by decide) (reg_compression env) ?_⟩
    rw [add_blank cfg _ t rfl hb, hf]
  · exact ⟨_, by rw [if_neg hb]; rfl, set_filled cfg env h f "compression" _ _ _ (by decide) (reg_compression env) (add_text cfg _ t hf (.inl rfl) rfl rfl hb)⟩

theorem set_size (hw : Writes env) (n : Nat) (hf : f "file_size" = []) : ∃ t,
    (⟨h, filled env f⟩ : Metadata).set cfg "file_size" (.value (.num (.int n))) = .ok ⟨h, filled env (Function.update f "file_size" [⟨.num (.int n), t⟩])⟩ := by
  obtain ⟨t, ht⟩ := hw.size n
  exact ⟨t, set_filled cfg env h f "file_size" _ _ _ (by decide) (reg_file_size env) (add_number cfg _ _ _ t hf rfl rfl rfl ht true rfl)⟩

theorem set_compr_size (hw : Writes env) (n : Nat) (hf : f "compr_size" = []) : ∃ t,
    (⟨h, filled env f⟩ : Metadata).set cfg "compr_size" (.value (.num (.int n))) = .ok ⟨h, filled env (Function.update f "compr_size" [⟨.num (.int n), t⟩])⟩ := by
  obtain ⟨t, ht⟩ := hw.size n
  exact ⟨t, set_filled cfg env h f "compr_size" _ _ _ (by decide) (reg_compr_size env) (add_number cfg _ _ _ t hf rfl rfl rfl ht true rfl)⟩

/-- The rates that are told: from 0.001 (as a float) to 1000. -/
def rateTold (q : Rat) : Bool := decide (1152921504606847 / 1152921504606846976 ≤ q) && decide (q ≤ 1000)

theorem set_rate (hw : Writes env) (q : Rat) (hf : f "compr_rate" = []) : ∃ t,
    (⟨h, filled env f⟩ : Metadata).set cfg "compr_rate" (.value (.num (.float (.fin q)))) =
      .ok ⟨h, filled env (Function.update f "compr_rate" (if rateTold q then [⟨.num (.float (.fin q)), t⟩] else []))⟩ := by
  obtain ⟨t, ht⟩ := hw.rate q
  refine ⟨t, set_filled cfg env h f "compr_rate" _ _ _ (by decide) (reg_compr_rate env) (add_number cfg _ _ _ t hf rfl rfl rfl ht (rateTold q) ?_)⟩
  rw [Data.filterOk]
  simp only [Filter.call, below, above, Num.toFlt, Flt.lt, rateTold]
  congr 1
  rw [← decide_not, ← decide_not]
  simp only [not_lt]

theorem set_creation (hw : Writes env) (v : Value) (hv : Moment v) (hf : f "creation_date" = []) : ∃ vs, vs.map Item.value = momentTold v ∧
    (⟨h, filled env f⟩ : Metadata).set cfg "creation_date" (.value v) = .ok ⟨h, filled env (Function.update f "creation_date" vs)⟩ := by
  cases v with
  | none =>
    refine ⟨[], rfl, set_filled cfg env h f "creation_date" _ _ _ (by decide) (reg_creation env) ?_⟩
    rw [add_none, hf]
  | datetime t z =>
    cases z with
    | none =>
      obtain ⟨vs, h1, h2⟩ := add_date cfg env hw { key := "creation_date", priority := 500, description := "Creation date", type := some [.datetime, .date], filter := some .datetime, textHandler := some (env.handler "humanDatetime"), conversion := some (setDatetime env), plainText := plainText env, values := f "creation_date" } t hf rfl rfl rfl rfl
      exact ⟨vs, h2, set_filled cfg env h f "creation_date" _ _ _ (by decide) (reg_creation env) h1⟩
    | some z => exact absurd hv (by simp [Moment])
  | _ => exact absurd hv (by simp [Moment])

theorem first_filled (k : String) (d0 : Data) (hd : (registerAllItems env).find? (fun d => d.key = k) = some d0) : first ⟨h, filled env f⟩ k = (f k).head?.map Item.value := by
  have e : ((fun d : Data => decide (d.key = k)) ∘ fun d : Data => ({ d with values := f d.key } : Data)) = fun d => decide (d.key = k) := rfl
  have hk := List.find?_some hd
  simp only [decide_eq_true_eq] at hk
  rw [first, Metadata.getItems, filled]
  simp only
  rw [List.find?_map, e, hd]
  simp only [Option.map_some, hk]
  cases f k <;> rfl

theorem title_filled : titleOf ⟨h, filled env f⟩ = match f "filename" with | [] => txt "File" | i :: _ => title i.text := by
  have hd := reg_filename env
  have e : ((fun d : Data => decide (d.key = "filename")) ∘ fun d : Data => ({ d with values := f d.key } : Data)) = fun d => decide (d.key = "filename") := rfl
  rw [titleOf, Metadata.getItems, filled]
  simp only
  rw [List.find?_map, e, hd]
  simp only [Option.map_some]
  cases f "filename" <;> rfl

theorem compr_size_step (hw : Writes env) (n : Nat) (hf : f "compr_size" = []) : ∃ vs, vs.map Item.value = (if n = 0 then [] else [.num (.int n)]) ∧
    comprSize cfg ⟨h, filled env f⟩ n = .ok ⟨h, filled env (Function.update f "compr_size" vs)⟩ := by
  by_cases hn : n = 0
  · refine ⟨[], by rw [if_pos hn]; rfl, ?_⟩
    rw [comprSize, if_pos hn, ← hf, Function.update_eq_self]
  · obtain ⟨t, ht⟩ := set_compr_size cfg env h f hw n hf
    exact ⟨[⟨.num (.int n), t⟩], by rw [if_neg hn]; rfl, by rw [comprSize, if_neg hn, ht]⟩

theorem compr_rate_step (hw : Writes env) (u c : Nat) (hu : (f "file_size").map Item.value = [.num (.int u)]) (hc : (f "compr_size").map Item.value = if c = 0 then [] else [.num (.int c)]) (hf : f "compr_rate" = []) :
    ∃ vs, vs.map Item.value = (if c ≠ 0 ∧ u ≠ 0 ∧ rateTold ((u : Rat) / c) then [.num (.float (.fin ((u : Rat) / c)))] else []) ∧
    comprRate cfg ⟨h, filled env f⟩ = .ok ⟨h, filled env (Function.update f "compr_rate" vs)⟩ := by
  have h1 : first ⟨h, filled env f⟩ "file_size" = some (.num (.int u)) := by
    rw [first_filled env h f _ _ (reg_file_size env), ← List.head?_map, hu]; rfl
  have h2 : first ⟨h, filled env f⟩ "compr_size" = if c = 0 then none else some (.num (.int c)) := by
    rw [first_filled env h f _ _ (reg_compr_size env), ← List.head?_map, hc]; split <;> rfl
  rw [comprRate, h1, h2]
  by_cases hc0 : c = 0
  · rw [if_pos hc0]
    refine ⟨[], by simp [hc0], ?_⟩
    rw [← hf, Function.update_eq_self]
  · rw [if_neg hc0]
    simp only
    by_cases hu0 : u = 0
    · refine ⟨[], by simp [hu0], ?_⟩
      rw [if_pos (.inr (by omega)), ← hf, Function.update_eq_self]
    · obtain ⟨t, ht⟩ := set_rate cfg env h f hw ((u : Rat) / c) hf
      refine ⟨if rateTold ((u : Rat) / c) then [⟨.num (.float (.fin ((u : Rat) / c))), t⟩] else [], ?_, by rw [← ht, if_neg (show ¬ ((c : Int) = 0 ∨ (u : Int) = 0) by omega), Int.cast_natCast, Int.cast_natCast]⟩
      by_cases hr : rateTold ((u : Rat) / c) = true
      · simp [hr, hc0, hu0]
      · simp [hr]

end Steps

theorem zip_core (cfg : Config) (env : Env) (hw : Writes env) (e : ZipEntry) (hm : Moment e.lastMod) :
    ∃ m, zipEntry cfg env e = withTitle m ((nameItems cfg e.name).head?.map Item.value) ∧
      toldFor m "filename" = (nameItems cfg e.name).map Item.value ∧
      toldFor m "file_size" = [.num (.int (e.descriptor.getD e.sizes).2)] ∧
      toldFor m "compr_size" = (if (e.descriptor.getD e.sizes).1 = 0 then [] else [.num (.int (e.descriptor.getD e.sizes).1)]) ∧
      toldFor m "creation_date" = momentTold e.lastMod ∧
      toldFor m "compression" = (if normalizeString cfg e.compression = [] then [] else [.text (toldName cfg e.compression)]) ∧
      toldFor m "compr_rate" = (if (e.descriptor.getD e.sizes).1 ≠ 0 ∧ (e.descriptor.getD e.sizes).2 ≠ 0 ∧ rateTold (((e.descriptor.getD e.sizes).2 : Rat) / (e.descriptor.getD e.sizes).1) then
        [.num (.float (.fin (((e.descriptor.getD e.sizes).2 : Rat) / (e.descriptor.getD e.sizes).1)))] else []) := by
  have hz : ∃ z, e.descriptor.getD e.sizes = z := ⟨_, rfl⟩
  obtain ⟨z, hz⟩ := hz
  rw [zipEntry, hz, show Metadata.new env (txt "Metadata") = ⟨txt "Metadata", filled env fun _ => []⟩ by rw [filled_nil]; rfl]
  rw [set_name cfg env _ _ e.name rfl]
  obtain ⟨v1, e1, s1⟩ := set_creation cfg env (txt "Metadata") (Function.update (fun _ => []) "filename" (nameItems cfg e.name)) hw e.lastMod hm rfl
  simp only [bind, Except.bind]
  rw [s1]
  simp only
  obtain ⟨v2, e2, s2⟩ := set_compression cfg env (txt "Metadata") (t := e.compression) (f := Function.update (Function.update (fun _ => []) "filename" (nameItems cfg e.name)) "creation_date" v1) rfl
  rw [s2]
  simp only
  generalize hg : Function.update (Function.update (Function.update (fun _ => ([] : List Item)) "filename" (nameItems cfg e.name)) "creation_date" v1) "compression" v2 = g
  have hg' : ∀ k, k ≠ "filename" → k ≠ "creation_date" → k ≠ "compression" → g k = [] := by
    intro k h1 h2 h3
    rw [← hg, Function.update_of_ne h3, Function.update_of_ne h2, Function.update_of_ne h1]
  obtain ⟨t3, s3⟩ := set_size cfg env (txt "Metadata") g hw z.2 (hg' _ (by decide) (by decide) (by decide))
  rw [s3]
  simp only
  obtain ⟨v4, e4, s4⟩ := compr_size_step cfg env (txt "Metadata") (hw := hw) (n := z.1) (f := Function.update g "file_size" [⟨.num (.int z.2), t3⟩]) (by rw [Function.update_of_ne (by decide)]; exact hg' _ (by decide) (by decide) (by decide))
  rw [s4]
  simp only
  obtain ⟨v5, e5, s5⟩ := compr_rate_step cfg env (txt "Metadata") (Function.update (Function.update g "file_size" [⟨.num (.int z.2), t3⟩]) "compr_size" v4) hw z.2 z.1
    (by rw [Function.update_of_ne (by decide), Function.update_self]; rfl) (by rw [Function.update_self, e4])
    (by rw [Function.update_of_ne (by decide), Function.update_of_ne (by decide)]; exact hg' _ (by decide) (by decide) (by decide))
  rw [s5]
  simp only
  rw [first_filled env _ _ _ _ (reg_filename env)]
  generalize hG : Function.update (Function.update (Function.update g "file_size" [⟨.num (.int z.2), t3⟩]) "compr_size" v4) "compr_rate" v5 = G
  have a1 : G "filename" = (nameItems cfg e.name) := by rw [← hG, ← hg]; rfl
  have a2 : G "file_size" = [⟨.num (.int z.2), t3⟩] := by rw [← hG, ← hg]; rfl
  have a3 : G "compr_size" = v4 := by rw [← hG, ← hg]; rfl
  have a4 : G "compr_rate" = v5 := by rw [← hG, ← hg]; rfl
  have a5 : G "creation_date" = v1 := by rw [← hG, ← hg]; rfl
  have a6 : G "compression" = v2 := by rw [← hG, ← hg]; rfl
  refine ⟨⟨txt "Metadata", filled env G⟩, by rw [a1], ?_, ?_, ?_, ?_, ?_, ?_⟩
  · rw [told_filled env _ _ _ _ (reg_filename env), a1]
  · rw [told_filled env _ _ _ _ (reg_file_size env), a2]; rfl
  · rw [told_filled env _ _ _ _ (reg_compr_size env), a3, e4]
  · rw [told_filled env _ _ _ _ (reg_creation env), a5, e1]
  · rw [told_filled env _ _ _ _ (reg_compression env), a6, e2]
  · rw [told_filled env _ _ _ _ (reg_compr_rate env), a4, e5]

/-- **C158.** What is told of a file of a ZIP archive whose name is not blank: its name, sizes, method, date and rate. -/
theorem C158_zip_file (cfg : Config) (env : Env) (hw : Writes env) (e : ZipEntry) (hb : normalizeString cfg e.name ≠ []) (hm : Moment e.lastMod) :
    ∃ m, zipEntry cfg env e = .ok (m, txt "File \"" ++ toldName cfg e.name ++ txt "\"") ∧
      toldFor m "filename" = [.text (toldName cfg e.name)] ∧
      toldFor m "file_size" = [.num (.int (e.descriptor.getD e.sizes).2)] ∧
      toldFor m "compr_size" = (if (e.descriptor.getD e.sizes).1 = 0 then [] else [.num (.int (e.descriptor.getD e.sizes).1)]) ∧
      toldFor m "creation_date" = momentTold e.lastMod ∧
      toldFor m "compression" = (if normalizeString cfg e.compression = [] then [] else [.text (toldName cfg e.compression)]) ∧
      toldFor m "compr_rate" = (if (e.descriptor.getD e.sizes).1 ≠ 0 ∧ (e.descriptor.getD e.sizes).2 ≠ 0 ∧ rateTold (((e.descriptor.getD e.sizes).2 : Rat) / (e.descriptor.getD e.sizes).1) then
        [.num (.float (.fin (((e.descriptor.getD e.sizes).2 : Rat) / (e.descriptor.getD e.sizes).1)))] else []) := by
  obtain ⟨m, h1, h2, h3⟩ := zip_core cfg env hw e hm
  rw [nameItems, if_neg hb] at h1 h2
  exact ⟨m, h1, h2, h3⟩

/-- **C158**, violated: a file of a ZIP archive whose name is blank is left out. -/
theorem C158_zip_blank (cfg : Config) (env : Env) (hw : Writes env) (e : ZipEntry) (hb : normalizeString cfg e.name = []) (hm : Moment e.lastMod) : zipEntry cfg env e = .error .value := by
  obtain ⟨m, h1, -⟩ := zip_core cfg env hw e hm
  rw [nameItems, if_pos hb] at h1
  exact h1

/-! ### CAB -/

/-- **C158.** What is told of a file of a CAB archive: its name, size and date, never its attributes (which is a violation). -/
theorem C158_cab_file (cfg : Config) (env : Env) (hw : Writes env) (e : CabEntry) (hm : Moment e.time) :
    ∃ m, cabEntry cfg env e = .ok (m, if normalizeString cfg e.name = [] then txt "File" else txt "File \"" ++ toldName cfg e.name ++ txt "\"") ∧
      toldFor m "filename" = (if normalizeString cfg e.name = [] then [] else [.text (toldName cfg e.name)]) ∧
      toldFor m "file_size" = [.num (.int e.size)] ∧ toldFor m "creation_date" = momentTold e.time ∧ toldFor m "file_attr" = [] := by
  rw [cabEntry, show Metadata.new env (txt "Metadata") = ⟨txt "Metadata", filled env fun _ => []⟩ by rw [filled_nil]; rfl]
  rw [set_name cfg env _ _ e.name rfl]
  obtain ⟨t2, s2⟩ := set_size cfg env (txt "Metadata") (Function.update (fun _ => []) "filename" (nameItems cfg e.name)) hw e.size rfl
  simp only [bind, Except.bind]
  rw [s2]
  simp only
  obtain ⟨v3, e3, s3⟩ := set_creation cfg env (txt "Metadata") (Function.update (Function.update (fun _ => []) "filename" (nameItems cfg e.name)) "file_size" [⟨.num (.int e.size), t2⟩]) hw e.time hm rfl
  rw [s3]
  simp only
  generalize hG : Function.update (Function.update (Function.update (fun _ => ([] : List Item)) "filename" (nameItems cfg e.name)) "file_size" [⟨.num (.int e.size), t2⟩]) "creation_date" v3 = G
  have a1 : G "filename" = nameItems cfg e.name := by rw [← hG]; rfl
  have a2 : G "file_size" = [⟨.num (.int e.size), t2⟩] := by rw [← hG]; rfl
  have a3 : G "creation_date" = v3 := by rw [← hG]; rfl
  have a4 : G "file_attr" = [] := by rw [← hG]; rfl
  have s4 := set_filled cfg env (txt "Metadata") G "file_attr" (.value .none) _ (G "file_attr") (by decide) (reg_attr env) (add_none cfg _)
  rw [Function.update_eq_self] at s4
  rw [cabAttrStep, if_neg (by simp [cabAttributes]), cabAttributes, s4]
  simp only
  refine ⟨⟨txt "Metadata", filled env G⟩, ?_, ?_, ?_, ?_, ?_⟩
  · congr 2
    rw [title_filled, a1, nameItems]
    by_cases hb : normalizeString cfg e.name = [] <;> simp [hb, title]
  · rw [told_filled env _ _ _ _ (reg_filename env), a1, nameItems]; split <;> rfl
  · rw [told_filled env _ _ _ _ (reg_file_size env), a2]; rfl
  · rw [told_filled env _ _ _ _ (reg_creation env), a3, e3]
  · rw [told_filled env _ _ _ _ (reg_attr env), a4]; rfl

/-! ### TAR -/

theorem reg_modification (env : Env) : (registerAllItems env).find? (fun d => d.key = "last_modification") =
    some { key := "last_modification", priority := 501, description := "Last modification", type := some [.datetime, .date], filter := some .datetime, textHandler := some (env.handler "humanDatetime"), conversion := some (setDatetime env), plainText := plainText env } := by
  simp [registerAllItems]

theorem reg_type (env : Env) : (registerAllItems env).find? (fun d => d.key = "file_type") =
    some { key := "file_type", priority := 401, description := "File type", plainText := plainText env } := by
  simp [registerAllItems]

theorem reg_author (env : Env) : (registerAllItems env).find? (fun d => d.key = "author") =
    some { key := "author", priority := 102, description := "Author", type := some [.str], plainText := plainText env } := by
  simp [registerAllItems]

theorem set_text (cfg : Config) (env : Env) (h : Text) (f : String → List Item) (k : String) (d0 : Data) (hk : k ≠ "track_number") (hd : (registerAllItems env).find? (fun d => d.key = k) = some d0)
    (ht : d0.type = none ∨ d0.type = some [.str]) (hfi : d0.filter = none) (hc : d0.conversion = none) (t : Text) (hf : f k = []) :
    (⟨h, filled env f⟩ : Metadata).set cfg k (.value (.text t)) = .ok ⟨h, filled env (Function.update f k (nameItems cfg t))⟩ := by
  by_cases hb : normalizeString cfg t = []
  · refine set_filled cfg env h f k _ _ _ hk hd ?_
    exact (add_blank cfg _ t (by exact hc) hb).trans (by rw [nameItems, if_pos hb, hf])
  · rw [nameItems, if_neg hb]
    exact set_filled cfg env h f k _ _ _ hk hd (add_text cfg _ t hf ht hfi hc hb)

/-- The time of a file: a moment, none, or an invalid one (`ValueError`). -/
def TarTime : Except PyErr (Option Value) → Prop
  | .ok (some (.datetime _ none)) => True
  | .ok none => True
  | .error .value => True
  | _ => False

def tarTimeTold : Except PyErr (Option Value) → List Value
  | .ok (some v) => momentTold v
  | _ => []

theorem assign_time (cfg : Config) (env : Env) (h : Text) (f : String → List Item) (hw : Writes env) (e : TarEntry) (ht : TarTime e.time) (hf : f "last_modification" = []) (r : List (Except PyErr (String × Arg))) :
    ∃ vs, vs.map Item.value = tarTimeTold e.time ∧ assign cfg ⟨h, filled env f⟩ (tarTime e ++ r) = assign cfg ⟨h, filled env (Function.update f "last_modification" vs)⟩ r := by
  rw [tarTime]
  cases hx : e.time with
  | error x =>
    rw [hx] at ht
    have : x = .value := by cases x <;> first | rfl | exact absurd ht (by simp [TarTime])
    subst this
    refine ⟨[], rfl, ?_⟩
    rw [← hf, Function.update_eq_self]
    rfl
  | ok o =>
    rw [hx] at ht
    cases o with
    | none =>
      refine ⟨[], rfl, ?_⟩
      rw [← hf, Function.update_eq_self]
      rfl
    | some v =>
      cases v with
      | datetime t z =>
        cases z with
        | none =>
          obtain ⟨vs, h1, h2⟩ := add_date cfg env hw { key := "last_modification", priority := 501, description := "Last modification", type := some [.datetime, .date], filter := some .datetime, textHandler := some (env.handler "humanDatetime"), conversion := some (setDatetime env), plainText := plainText env, values := f "last_modification" } t hf rfl rfl rfl rfl
          refine ⟨vs, h2, ?_⟩
          simp only [List.singleton_append]
          rw [assign, set_filled cfg env h f "last_modification" _ _ _ (by decide) (reg_modification env) h1]
        | some z => exact absurd ht (by simp [TarTime])
      | _ => exact absurd ht (by simp [TarTime])

/-- **C158.** What is told of a file of a TAR archive whose numbers are valid: name, size, date and type; a time that is not valid does not keep the others from being told. -/
theorem C158_tar_file (cfg : Config) (env : Env) (hw : Writes env) (e : TarEntry) (attr : Text) (n : Nat) (ha : e.attributes = .ok attr) (hn : e.size = .ok n) (ht : TarTime e.time) :
    toldFor (tarEntry cfg env e).1 "filename" = (if normalizeString cfg e.name = [] then [] else [.text (toldName cfg e.name)]) ∧
    toldFor (tarEntry cfg env e).1 "file_attr" = (if normalizeString cfg attr = [] then [] else [.text (toldName cfg attr)]) ∧
    toldFor (tarEntry cfg env e).1 "file_size" = [.num (.int n)] ∧
    toldFor (tarEntry cfg env e).1 "last_modification" = tarTimeTold e.time ∧
    toldFor (tarEntry cfg env e).1 "file_type" = (if normalizeString cfg e.type = [] then [] else [.text (toldName cfg e.type)]) ∧
    (tarEntry cfg env e).2 = (if normalizeString cfg e.name = [] then txt "File" else txt "File \"" ++ toldName cfg e.name ++ txt "\"") := by
  have hnames : ∀ t, (nameItems cfg t).map Item.value = if normalizeString cfg t = [] then [] else [.text (toldName cfg t)] := by
    intro t; rw [nameItems]; split <;> rfl
  have key : ∃ G : String → List Item, (tarEntry cfg env e).1 = ⟨txt "Metadata", filled env G⟩ ∧ (tarEntry cfg env e).2 = titleOf ⟨txt "Metadata", filled env G⟩ ∧ G "filename" = nameItems cfg e.name ∧ G "file_attr" = nameItems cfg attr ∧
      (G "file_size").map Item.value = [.num (.int n)] ∧ (G "last_modification").map Item.value = tarTimeTold e.time ∧ G "file_type" = nameItems cfg e.type := by
    have e0 : Metadata.new env (txt "Metadata") = ⟨txt "Metadata", filled env fun _ => []⟩ := by rw [filled_nil]; rfl
    obtain ⟨t3, s3⟩ := set_size cfg env (txt "Metadata") (Function.update (Function.update (fun _ => []) "filename" (nameItems cfg e.name)) "file_attr" (nameItems cfg attr)) hw n rfl
    generalize hg : Function.update (Function.update (Function.update (fun _ => ([] : List Item)) "filename" (nameItems cfg e.name)) "file_attr" (nameItems cfg attr)) "file_size" [⟨.num (.int n), t3⟩] = g at s3
    obtain ⟨v4, e4, s4⟩ := assign_time cfg env (txt "Metadata") g hw e ht (by rw [← hg]; rfl) [.ok ("file_type", .value (.text e.type)), e.author.map fun t => ("author", .value (.text t))]
    have s5 := set_text cfg env (txt "Metadata") (Function.update g "last_modification" v4) "file_type" _ (by decide) (reg_type env) (.inl rfl) rfl rfl e.type (by rw [← hg]; rfl)
    have m1 : (tarEntry cfg env e).1 = assign cfg ⟨txt "Metadata", filled env (Function.update (Function.update g "last_modification" v4) "file_type" (nameItems cfg e.type))⟩
        [e.author.map fun t => ("author", .value (.text t))] := by
      rw [tarEntry]
      simp only [ha, hn, Except.map, List.cons_append, List.nil_append]
      rw [e0, assign, set_name cfg env _ _ e.name rfl]
      simp only
      rw [assign, set_text cfg env _ _ "file_attr" _ (by decide) (reg_attr env) (.inl rfl) rfl rfl attr rfl]
      simp only
      rw [assign, s3]
      simp only
      rw [show (Except.map (fun t => (("author", Arg.value (Value.text t)) : String × Arg)) e.author) = (e.author.map fun t => ("author", .value (.text t))) from rfl] at *
      have := s4
      simp only [Except.map] at this ⊢
      rw [this, assign, s5]
    have m2 : (tarEntry cfg env e).2 = titleOf (tarEntry cfg env e).1 := rfl
    generalize hk : Function.update (Function.update g "last_modification" v4) "file_type" (nameItems cfg e.type) = k at *
    cases hau : e.author with
    | error x =>
      rw [hau] at m1
      refine ⟨k, m1, by rw [m2, m1]; rfl, ?_⟩
      rw [← hk, ← hg]
      exact ⟨rfl, rfl, rfl, e4, rfl⟩
    | ok t =>
      rw [hau] at m1
      have s6 := set_text cfg env (txt "Metadata") k "author" _ (by decide) (reg_author env) (.inr rfl) rfl rfl t (by rw [← hk, ← hg]; rfl)
      have m3 : (tarEntry cfg env e).1 = ⟨txt "Metadata", filled env (Function.update k "author" (nameItems cfg t))⟩ := by
        rw [m1]
        simp only [Except.map, assign]
        rw [s6]
      refine ⟨Function.update k "author" (nameItems cfg t), m3, by rw [m2, m3], ?_⟩
      rw [← hk, ← hg]
      exact ⟨rfl, rfl, rfl, e4, rfl⟩
  obtain ⟨G, k1, k2, k3, k4, k5, k6, k7⟩ := key
  rw [k1, k2]
  refine ⟨?_, ?_, ?_, ?_, ?_, ?_⟩
  · rw [told_filled env _ _ _ _ (reg_filename env), k3, hnames]
  · rw [told_filled env _ _ _ _ (reg_attr env), k4, hnames]
  · rw [told_filled env _ _ _ _ (reg_file_size env), k5]
  · rw [told_filled env _ _ _ _ (reg_modification env), k6]
  · rw [told_filled env _ _ _ _ (reg_type env), k7, hnames]
  · rw [title_filled, k3, nameItems]
    by_cases hb : normalizeString cfg e.name = [] <;> simp [hb, title]

/-- **C158**, violated: when the mode of a file of a TAR archive is not valid, its size is not told although it is valid; the name is. -/
theorem C158_tar_mode (cfg : Config) (env : Env) (e : TarEntry) (x : PyErr) (ha : e.attributes = .error x) :
    toldFor (tarEntry cfg env e).1 "filename" = (if normalizeString cfg e.name = [] then [] else [.text (toldName cfg e.name)]) ∧ toldFor (tarEntry cfg env e).1 "file_size" = [] := by
  have e0 : Metadata.new env (txt "Metadata") = ⟨txt "Metadata", filled env fun _ => []⟩ := by rw [filled_nil]; rfl
  have m1 : (tarEntry cfg env e).1 = ⟨txt "Metadata", filled env (Function.update (fun _ => []) "filename" (nameItems cfg e.name))⟩ := by
    rw [tarEntry]
    simp only [ha, Except.map, List.cons_append, List.nil_append]
    rw [e0, assign, set_name cfg env _ _ e.name rfl]
    rfl
  rw [m1, told_filled env _ _ _ _ (reg_filename env), told_filled env _ _ _ _ (reg_file_size env)]
  refine ⟨?_, rfl⟩
  rw [Function.update_self, nameItems]
  split <;> rfl

/-! ### Listing -/

/-- The first files: all for the best quality. -/
def limited {α : Type} (max : Option Nat) (files : List α) : List α := match max with | none => files | some n => files.take n

theorem told_nonempty (m : Metadata) (k : String) (h : toldFor m k ≠ []) : m.nonEmpty = true := by
  rw [toldFor] at h
  cases hd : m.data.find? (fun d => d.key = k) with
  | none => rw [hd] at h; exact absurd rfl h
  | some d =>
    rw [hd] at h
    rw [Metadata.nonEmpty, List.any_eq_true]
    refine ⟨d, List.mem_of_find?_eq_some hd, ?_⟩
    cases hv : d.values with
    | nil => rw [Option.map_some, Option.getD_some, hv] at h; exact absurd rfl h
    | cons => rfl

/-- The name of the group of a file. -/
def fileKey (i : Nat) : Text := txt "file[" ++ txt (toString i) ++ txt "]"

theorem fileKey_inj {i j : Nat} (h : fileKey i = fileKey j) : i = j := by
  rw [fileKey, fileKey, List.append_assoc, List.append_assoc] at h
  exact decimal_inj' (List.append_cancel_right (List.append_cancel_left h))

theorem fileKey_plain (i : Nat) : ¬ txt "[]" <:+ fileKey i := by
  rintro ⟨b, hb⟩
  have h1 : b ++ txt "[" = txt "file[" ++ txt (toString i) := by
    have : (b ++ txt "[") ++ txt "]" = (txt "file[" ++ txt (toString i)) ++ txt "]" := by
      rw [List.append_assoc]; exact hb
    exact List.append_cancel_right this
  have hne : txt (toString i) ≠ [] := by
    rw [decimal_eq]
    simp
  have h2 := congrArg List.getLast? h1
  rw [List.getLast?_append_of_ne_nil _ (by decide), List.getLast?_append_of_ne_nil _ hne] at h2
  have : (91 : Nat) ∈ txt (toString i) := List.mem_of_getLast? (by rw [← h2]; rfl)
  exact decimal_no_bracket' i this

/-- The groups of files from number `i` on. -/
def groupsOf {α : Type} (entry : α → Except PyErr (Metadata × Text)) : Nat → List α → List (Text × Metadata)
  | _, [] => []
  | i, f :: r => (match entry f with | .ok (x, h) => [(fileKey i, { x with header := h })] | .error _ => []) ++ groupsOf entry (i + 1) r

theorem addFiles_items {α : Type} (entry : α → Except PyErr (Metadata × Text)) (max : Option Nat) : ∀ (files : List α) (i : Nat) (m : Multiple),
    (∀ f ∈ files, ∀ x h, entry f = .ok (x, h) → x.nonEmpty = true ∧ h ≠ []) → DInv m.groups → (∀ k ∈ m.groups.items.map Prod.fst, ∃ j < i, k = fileKey j) →
    (addFiles entry max i files m).groups.items = m.groups.items ++ groupsOf entry i (limited (max.map (· - i)) files) ∧ (addFiles entry max i files m).common = m.common
  | [], i, m, _, _, _ => by
    cases max <;> simp [addFiles, limited, groupsOf]
  | f :: r, i, m, hf, hd, hk => by
    rw [addFiles]
    by_cases hm : max.any (fun n => decide (n ≤ i)) = true
    · rw [if_pos hm]
      cases max with
      | none => simp at hm
      | some n =>
        have : n ≤ i := by simpa using hm
        simp [limited, groupsOf, Nat.sub_eq_zero_of_le this]
    · rw [if_neg hm]
      have hlim : limited (max.map (· - i)) (f :: r) = f :: limited (max.map (· - (i + 1))) r := by
        cases max with
        | none => rfl
        | some n =>
          have : i < n := by simpa using hm
          simp only [limited, Option.map_some]
          rw [show n - i = (n - (i + 1)) + 1 by omega, List.take_succ_cons]
      rw [hlim, groupsOf]
      cases he : entry f with
      | error x =>
        simp only [List.nil_append]
        exact addFiles_items entry max r (i + 1) m (fun g hg => hf g (by simp [hg])) hd fun k hk' => by
          obtain ⟨j, hj, e⟩ := hk k hk'
          exact ⟨j, by omega, e⟩
      | ok p =>
        obtain ⟨x, h⟩ := p
        obtain ⟨hx, hh⟩ := hf f (by simp) x h he
        simp only
        have hnot : fileKey i ∉ m.groups.keys := by
          rw [← items_keys hd]
          intro c
          obtain ⟨j, hj, e⟩ := hk _ c
          have := fileKey_inj e
          omega
        have hstep := addGroup_eq m ⟨fileKey i, x, some h⟩ hx (fileKey i) m.counters
          (by rw [if_neg (fun e => fileKey_plain i (List.isSuffixOf_iff_suffix.mp e))])
        simp only at hstep
        have hh' : withHeader x (some h) = { x with header := h } := by rw [withHeader, if_neg hh]
        rw [hh'] at hstep
        obtain ⟨g, g1, g2, g3⟩ := append_ok m.groups hd (fileKey i) { x with header := h } hnot
        rw [g1] at hstep
        simp only at hstep
        rw [show txt "file[" ++ decimal i ++ txt "]" = fileKey i from rfl, hstep]
        obtain ⟨r1, r2⟩ := addFiles_items entry max r (i + 1) ⟨m.common, g, m.counters⟩ (fun g hg => hf g (by simp [hg])) g2 fun k hk' => by
          simp only at hk'
          rw [g3, List.map_append, List.mem_append] at hk'
          rcases hk' with hk' | hk'
          · obtain ⟨j, hj, e⟩ := hk k hk'
            exact ⟨j, by omega, e⟩
          · exact ⟨i, by omega, by simpa using hk'⟩
        refine ⟨?_, r2⟩
        rw [r1]
        simp only
        rw [g3, List.append_assoc]

/-- **C158.** The groups of an archive are those of its first files, in their order, each with the name of its field; none of them is lost. -/
theorem C158_listing (env : Env) {α : Type} (entry : α → Except PyErr (Metadata × Text)) (q : Rat) (files : List α) (hf : ∀ f ∈ files, ∀ x h, entry f = .ok (x, h) → x.nonEmpty = true ∧ h ≠ []) :
    (archive env entry q files).groups.items = groupsOf entry 0 (limited (maxNb q) files) := by
  rw [archive, (addFiles_items entry (maxNb q) files 0 _ hf DInv_empty (by simp [Dict.empty, Dict.items])).1]
  have : (maxNb q).map (· - 0) = maxNb q := by cases maxNb q <;> simp
  rw [this]
  rfl

theorem told_header (m : Metadata) (h : Text) (k : String) : toldFor { m with header := h } k = toldFor m k := rfl

theorem zip_groups (cfg : Config) (env : Env) (hw : Writes env) : ∀ (l : List ZipEntry) (i : Nat), (∀ e ∈ l, Moment e.lastMod ∧ normalizeString cfg e.name ≠ []) →
    (groupsOf (zipEntry cfg env) i l).map (fun g => (g.1, toldFor g.2 "filename", toldFor g.2 "file_size")) =
      l.mapIdx fun j e => (fileKey (i + j), [.text (toldName cfg e.name)], [.num (.int (e.descriptor.getD e.sizes).2)])
  | [], i, _ => rfl
  | e :: l, i, h => by
    obtain ⟨m, h1, h2, h3, -⟩ := C158_zip_file cfg env hw e (h e (by simp)).2 (h e (by simp)).1
    have ih := zip_groups cfg env hw l (i + 1) fun x hx => h x (by simp [hx])
    rw [groupsOf, h1, List.mapIdx_cons, List.map_append, ih]
    simp only [List.map_cons, List.map_nil, List.singleton_append, told_header, h2, h3, Nat.add_zero]
    congr 2
    funext j e
    rw [show i + 1 + j = i + (j + 1) by omega]

/-- **C158.** For a ZIP archive: with the best quality there are as many groups as files with a name, in the same order with their names. -/
theorem C158_zip (cfg : Config) (env : Env) (hw : Writes env) (files : List ZipEntry) (hm : ∀ e ∈ files, Moment e.lastMod ∧ normalizeString cfg e.name ≠ []) (q : Rat) :
    (archive env (zipEntry cfg env) q files).groups.items.map (fun g => (g.1, toldFor g.2 "filename", toldFor g.2 "file_size")) =
      (limited (maxNb q) files).mapIdx fun i e => (fileKey i, [.text (toldName cfg e.name)], [.num (.int (e.descriptor.getD e.sizes).2)]) := by
  rw [C158_listing env (zipEntry cfg env) q files]
  · have hl : ∀ e ∈ limited (maxNb q) files, Moment e.lastMod ∧ normalizeString cfg e.name ≠ [] := by
      intro e he
      apply hm
      cases hq : maxNb q with
      | none => rwa [hq] at he
      | some n => rw [hq] at he; exact List.mem_of_mem_take he
    generalize limited (maxNb q) files = l at hl
    simpa using zip_groups cfg env hw l 0 hl
  · intro e he x h hx
    obtain ⟨m, h1, h2, -⟩ := C158_zip_file cfg env hw e (hm e he).2 (hm e he).1
    rw [h1] at hx
    cases hx
    exact ⟨told_nonempty x "filename" (by rw [h2]; simp), by simp [txt]⟩

/-- **C158.** The limit: `n + 1` files for a quality between `n` and `n + 1` tenths; all for the best, none for the fastest. -/
theorem C158_limit (q : Rat) : (q ≤ 0 → maxNb q = some 0) ∧ (1 ≤ q → maxNb q = none) ∧ ∀ n : Nat, 0 < q → q < 1 → (n : Rat) ≤ 10 * q → 10 * q < n + 1 → maxNb q = some (n + 1) := by
  refine ⟨fun h => by rw [maxNb, if_pos h], fun h => by rw [maxNb, if_neg (by linarith), if_pos h], fun n h1 h2 h3 h4 => ?_⟩
  rw [maxNb, if_neg (by linarith), if_neg (by linarith)]
  have : (10 * q).floor = n := by
    have : ⌊10 * q⌋ = (n : Int) := by
      rw [Int.floor_eq_iff]
      exact ⟨by exact_mod_cast h3, by exact_mod_cast h4⟩
    exact this
  rw [this]
  simp [Nat.add_comm]

/-- An archive of two files. -/
def zipExample : List ZipEntry := [⟨txt "a.txt", .datetime ⟨2020, 1, 2, 3, 4, 6, 0⟩ none, txt "Deflate", none, (5, 10)⟩, ⟨txt "b", .none, txt "No compression", some (0, 0), (0, 0)⟩]

example : ∀ e ∈ zipExample, Moment e.lastMod ∧ normalizeString {} e.name ≠ [] := by
  intro e he
  simp only [zipExample, List.mem_cons, List.not_mem_nil, or_false] at he
  rcases he with rfl | rfl <;> exact ⟨trivial, by decide⟩

example : normalizeString {} (txt "  ") = [] := by decide

example : TarTime (.ok (some (.datetime ⟨2020, 1, 2, 3, 4, 6, 0⟩ none))) := trivial

end Hachoir.Props
