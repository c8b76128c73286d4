import Verif.Model.Coff
import Verif.Spec.Coff
import Verif.Proof.Elf
import Verif.Proof.StrTab

/-! # Helper lemmas for COFF -/

namespace Obj.Coff
open Obj Obj.Elf Obj.Spec Obj.Spec.CoffS

/-! ## Numbers in section names -/

theorem digitsValue_append (b : Nat) (ds : List Nat) (d : Nat) : digitsValue b (ds ++ [d]) = digitsValue b ds * b + d := by
  simp [digitsValue]

theorem decLoop_spec (k off : Nat) (acc : List UInt8) (h : off < 10 ^ k) (hl : acc.length + k ≤ 7) :
    ∃ ds : List Nat, decLoop off acc = .ok ((ds.map fun d => UInt8.ofNat (48 + d)) ++ acc) ∧ (∀ d ∈ ds, d < 10) ∧
      digitsValue 10 ds = off ∧ ds.length ≤ k ∧ (off ≠ 0 → ds ≠ []) := by
  induction k generalizing off acc with
  | zero =>
    have : off = 0 := by simpa using h
    subst this
    exact ⟨[], by unfold decLoop; simp, by simp, rfl, by simp, by simp⟩
  | succ k ih =>
    by_cases h0 : off = 0
    · subst h0
      exact ⟨[], by unfold decLoop; simp, by simp, rfl, by simp, by simp⟩
    · have hd : off / 10 < 10 ^ k := by
        rw [Nat.pow_succ] at h; omega
      obtain ⟨ds, h1, h2, h3, h4, -⟩ := ih (off / 10) (UInt8.ofNat (48 + off % 10) :: acc) hd (by simp; omega)
      refine ⟨ds ++ [off % 10], ?_, ?_, ?_, by simp; omega, by simp⟩
      · unfold decLoop
        rw [dif_neg h0, if_neg (by omega), h1]
        simp
      · intro d hd
        rcases List.mem_append.1 hd with hd | hd
        · exact h2 d hd
        · rw [List.mem_singleton] at hd; omega
      · rw [digitsValue_append, h3]; omega

theorem b64Loop_spec (n off : Nat) (acc : List UInt8) :
    ∃ ds : List Nat, b64Loop n off acc = (ds.map b64Char) ++ acc ∧ (∀ d ∈ ds, d < 64) ∧
      digitsValue 64 ds = off % 64 ^ n ∧ ds.length = n := by
  induction n generalizing off acc with
  | zero => exact ⟨[], by simp [b64Loop], by simp, by simp [digitsValue, Nat.mod_one], rfl⟩
  | succ n ih =>
    obtain ⟨ds, h1, h2, h3, h4⟩ := ih (off / 64) (b64Char (off % 64) :: acc)
    refine ⟨ds ++ [off % 64], ?_, ?_, ?_, by simp [h4]⟩
    · unfold b64Loop; rw [h1]; simp
    · intro d hd
      rcases List.mem_append.1 hd with hd | hd
      · exact h2 d hd
      · rw [List.mem_singleton] at hd; omega
    · rw [digitsValue_append, h3]
      rw [Nat.pow_succ, Nat.mul_comm (64 ^ n) 64, Nat.mod_mul]
      omega

theorem b64Char_eq (d : Nat) (h : d < 64) : b64Char d = alphabet.getD d 0 := by
  have : ∀ d : Fin 64, b64Char d.val = alphabet.getD d.val 0 := by decide +kernel
  exact this ⟨d, h⟩

theorem b64Offset_char (d : Nat) (h : d < 64) (bs : List UInt8) (v : Nat) :
    b64Offset (b64Char d :: bs) v = b64Offset bs (v * 64 + d) := by
  have hv : (b64Char d).toNat = if d ≤ 25 then 65 + d else if d ≤ 51 then 97 + d - 26 else if d ≤ 61 then 48 + d - 52
      else if d = 62 then 43 else 47 := by
    have : ∀ d : Fin 64, (b64Char d.val).toNat = if d.val ≤ 25 then 65 + d.val else if d.val ≤ 51 then 97 + d.val - 26
      else if d.val ≤ 61 then 48 + d.val - 52 else if d.val = 62 then 43 else 47 := by decide +kernel
    exact this ⟨d, h⟩
  rw [b64Offset]
  simp only [hv]
  by_cases h1 : d ≤ 25
  · rw [if_pos h1, if_pos (by omega)]; congr 1; omega
  · rw [if_neg h1]
    by_cases h2 : d ≤ 51
    · rw [if_pos h2, if_neg (by omega), if_pos (by omega)]; congr 1; omega
    · rw [if_neg h2]
      by_cases h3 : d ≤ 61
      · rw [if_pos h3, if_neg (by omega), if_neg (by omega), if_pos (by omega)]; congr 1; omega
      · rw [if_neg h3]
        by_cases h4 : d = 62
        · subst h4; rfl
        · have : d = 63 := by omega
          subst this; rfl

theorem b64Offset_map (ds : List Nat) (h : ∀ d ∈ ds, d < 64) (v : Nat) :
    b64Offset (ds.map b64Char) v = .ok (ds.foldl (fun v d => v * 64 + d) v) := by
  induction ds generalizing v with
  | nil => rfl
  | cons d ds ih =>
    rw [List.map_cons, b64Offset_char d (h d (by simp)), ih (fun x hx => h x (by simp [hx]))]
    rfl

theorem decChar_toNat (d : Nat) (h : d < 10) : (UInt8.ofNat (48 + d)).toNat = 48 + d := by
  rw [UInt8.toNat_ofNat']; omega

theorem decOffset_map (ds : List Nat) (h : ∀ d ∈ ds, d < 10) (v n : Nat) (hv : (v + 1) * 10 ^ ds.length ≤ U32) :
    decOffset ((ds.map fun d => UInt8.ofNat (48 + d)) ++ List.replicate n 0) v = .ok (ds.foldl (fun v d => v * 10 + d) v) := by
  induction ds generalizing v with
  | nil =>
    cases n with
    | zero => rfl
    | succ n => rw [List.map_nil, List.nil_append, List.replicate_succ, decOffset]; rfl
  | cons d ds ih =>
    have hd := h d (by simp)
    have hpos : 0 < 10 ^ ds.length := Nat.pow_pos (by decide)
    have hb : (v * 10 + d + 1) * 10 ^ ds.length ≤ U32 := by
      rw [List.length_cons, Nat.pow_succ, Nat.mul_comm (10 ^ ds.length) 10, ← Nat.mul_assoc] at hv
      exact Nat.le_trans (Nat.mul_le_mul_right _ (by omega)) hv
    have hlt : v * 10 + d < U32 := by
      have := Nat.le_mul_of_pos_right (v * 10 + d + 1) hpos
      omega
    rw [List.map_cons, List.cons_append, decOffset, decChar_toNat d hd, if_pos (by omega), if_neg (by omega)]
    have : 48 + d - 48 = d := by omega
    rw [this, ih (fun x hx => h x (by simp [hx])) _ hb]
    rfl

/-- Any name with the format of the specification is read as the offset it denotes. -/
theorem nameOffset_of (off : Nat) (name : List UInt8) (h : IsLongName off name) (ho : off < U32) :
    nameOffset name = .ok (some off) := by
  cases h with
  | decimal ds hne hl hd =>
    cases ds with
    | nil => exact absurd rfl hne
    | cons d ds =>
      have hc := decOffset_map (d :: ds) hd 0 (7 - (d :: ds).length) (by
        have : 10 ^ (d :: ds).length ≤ 10 ^ 7 := Nat.pow_le_pow_right (by decide) hl
        omega)
      have h47 : UInt8.ofNat (48 + d) ≠ 47 := by
        intro hc
        have := congrArg UInt8.toNat hc
        rw [decChar_toNat d (hd d (by simp))] at this
        simp at this
        omega
      simp only [List.map_cons, List.cons_append] at hc ⊢
      unfold nameOffset
      simp only [ne_eq, not_true_eq_false, if_false]
      rw [if_neg h47, hc]
      rfl
  | base64 ds hl hd =>
    have hm : (ds.map fun d => alphabet.getD d 0) = ds.map b64Char :=
      List.map_congr_left fun d h => (b64Char_eq d (hd d h)).symm
    rw [hm]
    unfold nameOffset
    simp only [ne_eq, not_true_eq_false, if_false, if_true]
    rw [b64Offset_map ds hd]
    simp only [Res.ok_bind]
    rw [if_pos (by exact ho)]
    rfl

/-- The writer produces a name of the format. -/
theorem longName_spec (off : Nat) (ho : off < U32) : ∃ name, longName off = .ok name ∧ IsLongName off name ∧ name.length = 8 := by
  unfold longName
  by_cases h : off ≤ 9999999
  · rw [if_pos h]
    by_cases h0 : off = 0
    · subst h0
      exact ⟨_, rfl, .decimal [0] (by simp) (by decide) (by simp), by decide⟩
    · rw [if_neg h0]
      obtain ⟨ds, h1, h2, h3, h4, h5⟩ := decLoop_spec 7 off [] (by omega) (by simp)
      rw [h1]
      simp only [List.append_nil, Res.ok_bind]
      refine ⟨_, rfl, ?_, by simp; omega⟩
      have := IsLongName.decimal ds (h5 h0) h4 h2
      rw [h3] at this
      simpa using this
  · rw [if_neg h]
    obtain ⟨ds, h1, h2, h3, h4⟩ := b64Loop_spec 6 off []
    rw [h1]
    refine ⟨_, rfl, ?_, by simp [h4]⟩
    have hm : (ds.map fun d => alphabet.getD d 0) = ds.map b64Char :=
      List.map_congr_left fun d h => (b64Char_eq d (h2 d h)).symm
    have := IsLongName.base64 ds h4 h2
    rw [h3, Nat.mod_eq_of_lt (by omega), hm] at this
    simpa using this

/-! ## Names through the string table -/

theorem addNames_table (t : StrTab) (ss : List (List UInt8)) :
    (addNames t ss).2 = addAll t (ss.filter fun s => decide (8 < s.length)) := by
  induction ss generalizing t with
  | nil => rfl
  | cons s ss ih =>
    unfold addNames addName
    by_cases h : 8 < s.length
    · simp only [if_pos h, ih]
      rw [List.filter_cons, if_pos (by simpa using h)]
      rfl
    · simp only [if_neg h, ih]
      rw [List.filter_cons, if_neg (by simpa using h)]

theorem addNames_get (t : StrTab) (hnd : t.strings.Nodup) (ss : List (List UInt8)) (i : Nat) (s : List UInt8) (hi : ss[i]? = some s) :
    (8 < s.length → ∃ k, (addNames t ss).1[i]? = some (.long (k % U32)) ∧ StrTab.indexOf s (addNames t ss).2.strings = some k) ∧
    (s.length ≤ 8 → (addNames t ss).1[i]? = some (.short (s ++ List.replicate (8 - s.length) 0))) := by
  induction ss generalizing t i with
  | nil => simp at hi
  | cons x ss ih =>
    have hnd' : (addName t x).2.strings.Nodup := by
      unfold addName
      split
      · have := (StrTab.addAll_strings [x] t hnd).1
        exact this
      · exact hnd
    cases i with
    | zero =>
      simp at hi
      subst hi
      constructor
      · intro h
        obtain ⟨k, h1, h2⟩ := StrTab.add_id t x
        refine ⟨k, ?_, ?_⟩
        · unfold addNames addName; simp [h, h2]
        · have hr : (addName t x).2 = (t.add x).2 := by unfold addName; rw [if_pos h]
          show StrTab.indexOf x (addNames (addName t x).2 ss).2.strings = some k
          rw [addNames_table, hr]
          rw [hr] at hnd'
          exact StrTab.indexOf_prefix (StrTab.addAll_strings _ _ hnd').2.1 h1
      · intro h
        unfold addNames addName
        rw [if_neg (by omega)]
        rfl
    | succ i =>
      simp at hi
      have := ih (addName t x).2 hnd' i hi
      unfold addNames
      simpa using this

theorem write_strings (t t' : StrTab) (base : Nat) (r : Res Nat) (out : List UInt8) (h : StrTab.write t base = (r, t', out)) :
    t'.strings = t.strings := by
  unfold StrTab.write at h
  repeat' split at h
  all_goals (simp only [Prod.mk.injEq] at h; obtain ⟨-, rfl, -⟩ := h; rfl)

/-! ## Structs -/

theorem Reloc.length_encode (r : Reloc) : r.encode.length = 10 := by simp [Reloc.encode]

theorem Reloc.decode_encode (r : Reloc) (h : RelocFits r) (tl : List UInt8) : Reloc.decode (r.encode ++ tl) = r := by
  obtain ⟨h1, h2, h3⟩ := h
  unfold Reloc.decode Reloc.encode
  rw [field_encode_zero _ _ _ _ _ (by omega), field_encode_succ _ _ _ _ _ _ _ (by decide),
    field_encode_zero _ _ _ _ _ (by omega), field_encode_succ _ _ _ _ _ _ _ (by decide),
    field_encode_succ _ _ _ _ _ _ _ (by decide), field_encode_zero _ _ _ _ _ (by omega)]

theorem field_drop (e : Endianness) (a b : List UInt8) (off w : Nat) (h : a.length ≤ off) :
    field e (a ++ b) off w = field e b (off - a.length) w := by
  unfold field
  rw [List.drop_append, List.drop_of_length_le h, List.nil_append]

theorem Section.length_encode (s : Section) (h : s.name.length = 8) : s.encode.length = 40 := by
  simp [Section.encode, h]

theorem Section.decode_encode (s : Section) (h8 : s.name.length = 8) (h1 : s.virtualSize < 2 ^ 32) (h2 : s.virtualAddress < 2 ^ 32)
    (h3 : s.sizeOfRawData < 2 ^ 32) (h4 : s.pointerToRawData < 2 ^ 32) (h5 : s.pointerToRelocations < 2 ^ 32)
    (h6 : s.pointerToLinenumbers < 2 ^ 32) (h7 : s.numberOfRelocations < 2 ^ 16) (h9 : s.numberOfLinenumbers < 2 ^ 16)
    (h10 : s.characteristics < 2 ^ 32) (tl : List UInt8) : Section.decode (s.encode ++ tl) = s := by
  unfold Section.decode Section.encode
  rw [List.append_assoc]
  have ht : (s.name ++ (Obj.encode .little [(4, s.virtualSize), (4, s.virtualAddress), (4, s.sizeOfRawData), (4, s.pointerToRawData),
    (4, s.pointerToRelocations), (4, s.pointerToLinenumbers), (2, s.numberOfRelocations), (2, s.numberOfLinenumbers),
    (4, s.characteristics)] ++ tl)).take 8 = s.name := by
    rw [← h8]; simp
  rw [ht]
  simp only [field_drop _ s.name _ _ _ (show s.name.length ≤ 8 by omega), field_drop _ s.name _ _ _ (show s.name.length ≤ 12 by omega),
    field_drop _ s.name _ _ _ (show s.name.length ≤ 16 by omega), field_drop _ s.name _ _ _ (show s.name.length ≤ 20 by omega),
    field_drop _ s.name _ _ _ (show s.name.length ≤ 24 by omega), field_drop _ s.name _ _ _ (show s.name.length ≤ 28 by omega),
    field_drop _ s.name _ _ _ (show s.name.length ≤ 32 by omega), field_drop _ s.name _ _ _ (show s.name.length ≤ 34 by omega),
    field_drop _ s.name _ _ _ (show s.name.length ≤ 36 by omega), h8]
  have hz := fun w v fs h => field_encode_zero .little w v fs tl h
  have hsu := fun w v fs off w' h => field_encode_succ .little w v fs tl off w' h
  congr 1
  · exact hz _ _ _ (by omega)
  · rw [hsu _ _ _ _ _ (by decide)]; exact hz _ _ _ (by omega)
  · iterate 2 rw [hsu _ _ _ _ _ (by decide)]
    exact hz _ _ _ (by omega)
  · iterate 3 rw [hsu _ _ _ _ _ (by decide)]
    exact hz _ _ _ (by omega)
  · iterate 4 rw [hsu _ _ _ _ _ (by decide)]
    exact hz _ _ _ (by omega)
  · iterate 5 rw [hsu _ _ _ _ _ (by decide)]
    exact hz _ _ _ (by omega)
  · iterate 6 rw [hsu _ _ _ _ _ (by decide)]
    exact hz _ _ _ (by omega)
  · iterate 7 rw [hsu _ _ _ _ _ (by decide)]
    exact hz _ _ _ (by omega)
  · iterate 8 rw [hsu _ _ _ _ _ (by decide)]
    exact hz _ _ _ (by omega)

/-! ## Symbols -/

theorem chunks_get (size : Nat) : ∀ (count : Nat) (l : List UInt8) (j : Nat), j < count →
    (Bytes.chunks size count l)[j]? = some (slice l (size * j) size) := by
  intro count
  induction count with
  | zero => intro l j h; omega
  | succ n ih =>
    intro l j h
    cases j with
    | zero => simp [Bytes.chunks, slice]
    | succ j =>
      rw [Bytes.chunks, List.getElem?_cons_succ, ih _ _ (by omega)]
      unfold slice
      rw [List.drop_drop, Nat.mul_succ, Nat.add_comm size]

theorem chunks_none (size : Nat) (count : Nat) (l : List UInt8) (j : Nat) (h : count ≤ j) :
    (Bytes.chunks size count l)[j]? = none := by
  induction count generalizing l j with
  | zero => simp [Bytes.chunks]
  | succ n ih =>
    obtain ⟨j, rfl⟩ : ∃ k, j = k + 1 := ⟨j - 1, by omega⟩
    rw [Bytes.chunks, List.getElem?_cons_succ, ih _ _ (by omega)]

theorem length_chunks (size count : Nat) (l : List UInt8) : (Bytes.chunks size count l).length = count := by
  induction count generalizing l with
  | zero => rfl
  | succ n ih => simp [Bytes.chunks, ih]

theorem chunks_drop (size : Nat) : ∀ (a count : Nat) (l : List UInt8), a ≤ count →
    (Bytes.chunks size count l).drop a = Bytes.chunks size (count - a) (l.drop (size * a)) := by
  intro a
  induction a with
  | zero => intro count l _; simp
  | succ a ih =>
    intro count l h
    obtain ⟨c, rfl⟩ : ∃ c, count = c + 1 := ⟨count - 1, by omega⟩
    rw [Bytes.chunks, List.drop_succ_cons, ih _ _ (by omega), List.drop_drop, Nat.mul_succ, Nat.add_comm size]
    congr 1; omega

theorem chunks_take (size : Nat) : ∀ (a count : Nat) (l : List UInt8), a ≤ count →
    (Bytes.chunks size count l).take a = Bytes.chunks size a l := by
  intro a
  induction a with
  | zero => intro count l _; simp [Bytes.chunks]
  | succ a ih =>
    intro count l h
    obtain ⟨c, rfl⟩ : ∃ c, count = c + 1 := ⟨count - 1, by omega⟩
    rw [Bytes.chunks, List.take_succ_cons, ih _ _ (by omega), Bytes.chunks]

theorem chunks_range (size count : Nat) (l : List UInt8) (a c : Nat) (h : a + c ≤ count) (hl : count * size ≤ l.length) :
    (((Bytes.chunks size count l).drop a).take c).flatten = slice l (size * a) (c * size) := by
  rw [chunks_drop _ _ _ _ (by omega), chunks_take _ _ _ _ (by omega)]
  have h1 : (a + c) * size ≤ count * size := Nat.mul_le_mul_right _ h
  rw [Nat.add_mul, Nat.mul_comm a size] at h1
  rw [(flatten_chunks size c _ (by rw [List.length_drop]; omega)).1]
  rfl

theorem sectionNumber_small (i : Int) (h1 : -256 ≤ i) (h2 : i < 0xff00) :
    (if 0xfeff < ofSigned 2 i then toSigned 2 (ofSigned 2 i) else ((ofSigned 2 i : Nat) : Int)) = i ∧ ofSigned 2 i < 256 ^ 2 := by
  unfold ofSigned toSigned
  have e : (256 : Int) ^ 2 = 65536 := by decide
  have e2 : 256 ^ 2 / 2 = 32768 := by decide
  rw [e, e2]
  by_cases h : 0 ≤ i
  · have : i % 65536 = i := Int.emod_eq_of_lt h (by omega)
    rw [this]
    constructor
    · rw [if_neg (by omega)]; omega
    · omega
  · have : i % 65536 = i + 65536 := by omega
    rw [this]
    constructor
    · rw [if_pos (by omega), if_neg (by omega)]; omega
    · omega

/-- The image of a symbol as written. -/
def symImg (e : Entry) : List UInt8 :=
  e.name ++ Obj.encode .little [(4, e.value), (2, ofSigned 2 e.sectionNumber), (2, e.typ), (1, e.storageClass), (1, e.aux.count)]

theorem length_symImg (e : Entry) (h : e.name.length = 8) : (symImg e).length = 18 := by simp [symImg, h]

theorem auxCount_lt (e : Entry) (h : e.Fits) : e.aux.count < 256 := by
  have := h.aux
  cases hx : e.aux with
  | none => simp [Aux.count]
  | file name =>
    rw [hx] at this
    have := this.1
    simp only [Aux.count]; omega
  | «section» a => simp [Aux.count]
  | weak a b => simp [Aux.count]

theorem decode_symImg (e : Entry) (h : e.Fits) : Symbol.decode false (symImg e) = e.symbol := by
  have hc := auxCount_lt e h
  obtain ⟨h8, h1, h2, h3, h4, h5⟩ := h
  obtain ⟨s1, s2⟩ := sectionNumber_small _ h2.1 h2.2
  unfold Symbol.decode symImg
  have hz := fun w v fs h => field_encode_zero .little w v fs [] h
  have hsu := fun w v fs off w' h => field_encode_succ .little w v fs [] off w' h
  simp only [List.append_nil] at hz hsu
  have ht : ∀ b : List UInt8, (e.name ++ b).take 8 = e.name := by intro b; rw [← h8]; simp
  simp only [Bool.false_eq_true, if_false]
  rw [ht]
  simp only [field_drop _ e.name _ _ _ (show e.name.length ≤ 8 by omega), field_drop _ e.name _ _ _ (show e.name.length ≤ 12 by omega),
    field_drop _ e.name _ _ _ (show e.name.length ≤ 14 by omega), field_drop _ e.name _ _ _ (show e.name.length ≤ 16 by omega),
    field_drop _ e.name _ _ _ (show e.name.length ≤ 17 by omega), h8]
  have g1 : field .little (Obj.encode .little [(4, e.value), (2, ofSigned 2 e.sectionNumber), (2, e.typ), (1, e.storageClass), (1, e.aux.count)]) (8 - 8) 4 = e.value := hz _ _ _ (by omega)
  have g2 : field .little (Obj.encode .little [(4, e.value), (2, ofSigned 2 e.sectionNumber), (2, e.typ), (1, e.storageClass), (1, e.aux.count)]) (12 - 8) 2 = ofSigned 2 e.sectionNumber := by
    rw [hsu _ _ _ _ _ (by decide)]; exact hz _ _ _ (by omega)
  have g3 : field .little (Obj.encode .little [(4, e.value), (2, ofSigned 2 e.sectionNumber), (2, e.typ), (1, e.storageClass), (1, e.aux.count)]) (14 - 8) 2 = e.typ := by
    iterate 2 rw [hsu _ _ _ _ _ (by decide)]
    exact hz _ _ _ (by omega)
  have g4 : field .little (Obj.encode .little [(4, e.value), (2, ofSigned 2 e.sectionNumber), (2, e.typ), (1, e.storageClass), (1, e.aux.count)]) (16 - 8) 1 = e.storageClass := by
    iterate 3 rw [hsu _ _ _ _ _ (by decide)]
    exact hz _ _ _ (by omega)
  have g5 : field .little (Obj.encode .little [(4, e.value), (2, ofSigned 2 e.sectionNumber), (2, e.typ), (1, e.storageClass), (1, e.aux.count)]) (17 - 8) 1 = e.aux.count := by
    iterate 4 rw [hsu _ _ _ _ _ (by decide)]
    exact hz _ _ _ (by omega)
  rw [g1, g2, g3, g4, g5, s1]
  rfl

/-- The auxiliary records of a symbol as written. -/
def auxImg : Aux → List UInt8
  | .none => []
  | .file name => name ++ List.replicate (((name.length + 17) / 18) * 18 - name.length) 0
  | .section a => auxSection a
  | .weak d s => auxWeak d s

theorem length_auxImg (a : Aux) : (auxImg a).length = 18 * a.count := by
  cases a with
  | none => rfl
  | file name => simp only [auxImg, List.length_append, List.length_replicate, Aux.count]; omega
  | «section» a => simp [auxImg, auxSection, Aux.count]
  | weak a b => simp [auxImg, auxWeak, Aux.count]

theorem entry_bytes (t : StrTab) (e : Entry) (h : e.Fits) : e.bytes t = .ok (symImg e ++ auxImg e.aux) := by
  have hx := h.aux
  unfold Entry.bytes writeSymbol symbolName symImg
  cases ha : e.aux with
  | none => simp [auxImg, Aux.count]
  | «section» a => simp [auxImg, Aux.count]
  | weak a b => simp [auxImg, Aux.count]
  | file name =>
    rw [ha] at hx
    have h1 := hx.1
    have hc : auxFileNameCount name = (name.length + 17) / 18 := by unfold auxFileNameCount; omega
    simp only [Res.ok_bind, hc, auxFileName]
    rw [if_neg (by omega)]
    simp [auxImg, Aux.count]

theorem entries_ok (t : StrTab) (es : List Entry) (h : ∀ e ∈ es, e.Fits) :
    ∃ bs, entriesBytes t es = .ok bs ∧ bs.length = 18 * records es := by
  induction es with
  | nil => exact ⟨[], rfl, rfl⟩
  | cons e es ih =>
    obtain ⟨bs, h1, h2⟩ := ih (fun x hx => h x (by simp [hx]))
    have he := h e (by simp)
    refine ⟨symImg e ++ auxImg e.aux ++ bs, ?_, ?_⟩
    · rw [entriesBytes, entry_bytes t e he, h1]; rfl
    · rw [List.length_append, List.length_append, length_symImg e he.name, length_auxImg, h2]
      simp only [records, List.map_cons, List.sum_cons]
      omega

theorem entries_at (t : StrTab) (es : List Entry) (h : ∀ e ∈ es, e.Fits) (bs : List UInt8) (hb : entriesBytes t es = .ok bs)
    (pre : List UInt8) (k : Nat) (hp : pre.length = 18 * k) (p : Nat × Entry) (hm : p ∈ indexed k es) :
    p.2 ∈ es ∧ p.1 + (1 + p.2.aux.count) ≤ k + records es ∧ At (pre ++ bs) (18 * p.1) (symImg p.2 ++ auxImg p.2.aux) := by
  induction es generalizing bs pre k with
  | nil => simp [indexed] at hm
  | cons e es ih =>
    have he := h e (by simp)
    obtain ⟨bs', h1, h2⟩ := entries_ok t es (fun x hx => h x (by simp [hx]))
    rw [entriesBytes, entry_bytes t e he, h1] at hb
    simp only [Res.ok_bind, Res.ok.injEq] at hb
    subst hb
    rw [indexed, List.mem_cons] at hm
    simp only [records, List.map_cons, List.sum_cons]
    rcases hm with rfl | hm
    · refine ⟨by simp, by show k + (1 + e.aux.count) ≤ _; omega, ?_⟩
      unfold At
      exact slice_of_append hp rfl
    · obtain ⟨g1, g2, g3⟩ := ih (fun x hx => h x (by simp [hx])) bs' h1 (pre ++ (symImg e ++ auxImg e.aux)) (k + (1 + e.aux.count))
        (by simp only [List.length_append, length_symImg e he.name, length_auxImg, hp]; omega) hm
      refine ⟨by simp [g1], ?_, ?_⟩
      · unfold records at g2; omega
      · rw [List.append_assoc] at g3; exact g3

end Obj.Coff
