import Verif.Proof.Coff
import Verif.Proof.Util
import Verif.Props.ElfTables
import Verif.Props.StrTab

/-! # COFF objects: C31 C32 C53 C54 C55 -/

namespace Obj.Props
open Obj Obj.Elf Obj.Coff Obj.Spec Obj.Spec.CoffS

/-! ## C31: section names -/

/-- C31: for every string table offset, the writer produces an 8-byte name of the documented format (decimal if it fits in 7
digits, base 64 otherwise), and the reader decodes it to the same offset. -/
theorem C31_long_name (off : Nat) (ho : off < 2 ^ 32) :
    ∃ name, longName off = .ok name ∧ name.length = 8 ∧ IsLongName off name ∧ nameOffset name = .ok (some off) ∧
      (name[1]? = some 47 ↔ 10 ^ 7 ≤ off) := by
  obtain ⟨name, h1, h2, h3⟩ := longName_spec off ho
  refine ⟨name, h1, h3, h2, nameOffset_of off name h2 ho, ?_⟩
  unfold longName at h1
  by_cases h : off ≤ 9999999
  · rw [if_pos h] at h1
    constructor
    · intro hn
      exfalso
      by_cases h0 : off = 0
      · subst h0; simp at h1; subst h1; simp at hn
      · rw [if_neg h0] at h1
        obtain ⟨ds, g1, g2, g3, g4, g5⟩ := decLoop_spec 7 off [] (by omega) (by simp)
        rw [g1] at h1
        simp at h1
        subst h1
        cases ds with
        | nil => exact g5 h0 rfl
        | cons d ds =>
          have hn' : UInt8.ofNat (48 + d) = 47 := by simpa using hn
          have := congrArg UInt8.toNat hn'
          have hd := g2 d (by simp)
          rw [decChar_toNat d hd] at this
          simp at this
          omega
    · intro; omega
  · rw [if_neg h] at h1
    simp at h1
    subst h1
    simp
    omega

/-- C31: any name of the documented format, whoever wrote it, is decoded to its offset; a base 64 number of 2^32 or more is an
error. -/
theorem C31_decode (off : Nat) (name : List UInt8) (h : IsLongName off name) :
    nameOffset name = if off < 2 ^ 32 then .ok (some off) else .err := by
  by_cases ho : off < 2 ^ 32
  · rw [if_pos ho]; exact nameOffset_of off name h ho
  · rw [if_neg ho]
    cases h with
    | decimal ds hne hl hd =>
      exfalso
      have : ∀ (l : List Nat) v, (∀ d ∈ l, d < 10) → l.foldl (fun v d => v * 10 + d) v < (v + 1) * 10 ^ l.length := by
        intro l
        induction l with
        | nil => intro v _; simp
        | cons d l ih =>
          intro v hd
          have := ih (v * 10 + d) (fun x hx => hd x (by simp [hx]))
          have h1 := hd d (by simp)
          rw [List.foldl_cons, List.length_cons, Nat.pow_succ, Nat.mul_comm (10 ^ l.length) 10, ← Nat.mul_assoc]
          exact Nat.lt_of_lt_of_le this (Nat.mul_le_mul_right _ (by omega))
      have hb := this ds 0 hd
      have : 10 ^ ds.length ≤ 10 ^ 7 := Nat.pow_le_pow_right (by decide) hl
      unfold digitsValue at ho
      omega
    | base64 ds hl hd =>
      have hm : (ds.map fun d => alphabet.getD d 0) = ds.map b64Char :=
        List.map_congr_left fun d h => (b64Char_eq d (hd d h)).symm
      rw [hm]
      unfold nameOffset
      simp only [ne_eq, not_true_eq_false, if_false, if_true]
      rw [b64Offset_map ds hd]
      simp only [Res.ok_bind]
      rw [if_neg (by exact ho)]

private theorem decOffset_ok (l : List UInt8) (v off : Nat) (h : decOffset l v = .ok off) :
    ∃ ds : List Nat, (∀ d ∈ ds, d < 10) ∧ off = ds.foldl (fun v d => v * 10 + d) v ∧
      (l = (ds.map fun d => UInt8.ofNat (48 + d)) ∨ ∃ rest, l = (ds.map fun d => UInt8.ofNat (48 + d)) ++ 0 :: rest) := by
  induction l generalizing v with
  | nil =>
    simp only [decOffset, Res.ok.injEq] at h
    exact ⟨[], by simp, h.symm, Or.inl rfl⟩
  | cons b l ih =>
    unfold decOffset at h
    by_cases hd : 48 ≤ b.toNat ∧ b.toNat ≤ 57
    · rw [if_pos hd] at h
      split at h
      · simp at h
      · obtain ⟨ds, h1, h2, h3⟩ := ih _ h
        have hb : UInt8.ofNat (48 + (b.toNat - 48)) = b := by
          rw [show 48 + (b.toNat - 48) = b.toNat by omega]; exact UInt8.ofNat_toNat
        refine ⟨(b.toNat - 48) :: ds, ?_, h2, ?_⟩
        · intro d hd'
          rw [List.mem_cons] at hd'
          rcases hd' with rfl | hd'
          · omega
          · exact h1 d hd'
        · rw [List.map_cons, hb]
          rcases h3 with h3 | ⟨rest, h3⟩
          · exact Or.inl (by rw [← h3])
          · exact Or.inr ⟨rest, by rw [h3]; rfl⟩
    · rw [if_neg hd] at h
      by_cases h0 : b = 0
      · rw [if_pos h0] at h
        simp only [Res.ok.injEq] at h
        exact ⟨[], by simp, h.symm, Or.inr ⟨l, by simp [h0]⟩⟩
      · rw [if_neg h0] at h; simp at h

private theorem b64Offset_ok (l : List UInt8) (v off : Nat) (h : b64Offset l v = .ok off) :
    ∃ ds : List Nat, (∀ d ∈ ds, d < 64) ∧ off = ds.foldl (fun v d => v * 64 + d) v ∧ l = ds.map fun d => alphabet.getD d 0 := by
  induction l generalizing v with
  | nil =>
    simp only [b64Offset, Res.ok.injEq] at h
    exact ⟨[], by simp, h.symm, rfl⟩
  | cons b l ih =>
    have hstep : ∀ d, d < 64 → alphabet.getD d 0 = b → b64Offset l (v * 64 + d) = .ok off →
        ∃ ds : List Nat, (∀ d ∈ ds, d < 64) ∧ off = ds.foldl (fun v d => v * 64 + d) v ∧ b :: l = ds.map fun d => alphabet.getD d 0 := by
      intro d hd hb hr
      obtain ⟨ds, h1, h2, h3⟩ := ih _ hr
      refine ⟨d :: ds, ?_, h2, ?_⟩
      · intro x hx
        rw [List.mem_cons] at hx
        rcases hx with rfl | hx
        · exact hd
        · exact h1 x hx
      · rw [List.map_cons, hb, ← h3]
    have hch : ∀ d, d < 64 → (b64Char d).toNat = b.toNat → alphabet.getD d 0 = b := by
      intro d hd hb
      rw [← b64Char_eq d hd]
      exact UInt8.toNat_inj.1 hb
    have hv : ∀ d, d < 64 → (b64Char d).toNat = if d ≤ 25 then 65 + d else if d ≤ 51 then 97 + d - 26 else if d ≤ 61 then 48 + d - 52
        else if d = 62 then 43 else 47 := by
      have : ∀ d : Fin 64, (b64Char d.val).toNat = if d.val ≤ 25 then 65 + d.val else if d.val ≤ 51 then 97 + d.val - 26
        else if d.val ≤ 61 then 48 + d.val - 52 else if d.val = 62 then 43 else 47 := by decide +kernel
      exact fun d h => this ⟨d, h⟩
    unfold b64Offset at h
    simp only at h
    by_cases c1 : 65 ≤ b.toNat ∧ b.toNat ≤ 90
    · rw [if_pos c1] at h
      refine hstep _ (by omega) (hch _ (by omega) ?_) h
      rw [hv _ (by omega), if_pos (by omega)]; omega
    rw [if_neg c1] at h
    by_cases c2 : 97 ≤ b.toNat ∧ b.toNat ≤ 122
    · rw [if_pos c2] at h
      refine hstep _ (by omega) (hch _ (by omega) ?_) h
      rw [hv _ (by omega), if_neg (by omega), if_pos (by omega)]; omega
    rw [if_neg c2] at h
    by_cases c3 : 48 ≤ b.toNat ∧ b.toNat ≤ 57
    · rw [if_pos c3] at h
      refine hstep _ (by omega) (hch _ (by omega) ?_) h
      rw [hv _ (by omega), if_neg (by omega), if_neg (by omega), if_pos (by omega)]; omega
    rw [if_neg c3] at h
    by_cases c4 : b.toNat = 43
    · rw [if_pos c4] at h
      refine hstep 62 (by omega) (hch _ (by omega) ?_) h
      rw [c4]; decide
    rw [if_neg c4] at h
    by_cases c5 : b.toNat = 47
    · rw [if_pos c5] at h
      refine hstep 63 (by omega) (hch _ (by omega) ?_) h
      rw [c5]; decide
    rw [if_neg c5] at h
    simp at h

/-- C31: conversely an offset is returned only for a slash and decimal digits (ended by a NUL or the end of the name), or two
slashes and base 64 digits; and a name is taken as such exactly if it does not start with a slash. -/
theorem C31_decode_only (name : List UInt8) (hl : name.length = 8) :
    (∀ off, nameOffset name = .ok (some off) → off < 2 ^ 32 ∧
      ((∃ ds : List Nat, (∀ d ∈ ds, d < 10) ∧ off = digitsValue 10 ds ∧
        (name = 47 :: (ds.map fun d => UInt8.ofNat (48 + d)) ∨ ∃ rest, name = 47 :: (ds.map fun d => UInt8.ofNat (48 + d)) ++ 0 :: rest)) ∨
       ∃ ds : List Nat, (∀ d ∈ ds, d < 64) ∧ off = digitsValue 64 ds ∧ name = 47 :: 47 :: ds.map fun d => alphabet.getD d 0)) ∧
    (nameOffset name = .ok none ↔ name.head? ≠ some 47) := by
  match name, hl with
  | b0 :: b1 :: rest, hl =>
    unfold nameOffset
    by_cases h0 : b0 = 47
    · subst h0
      simp only [ne_eq, not_true_eq_false, if_false, List.head?_cons, iff_false]
      by_cases h1 : b1 = 47
      · subst h1
        simp only [if_true]
        cases hr : b64Offset rest 0 with
        | err => simp
        | panic => simp
        | ok v =>
          obtain ⟨ds, g1, g2, g3⟩ := b64Offset_ok _ _ _ hr
          simp only [Res.ok_bind]
          by_cases hv : v < U32
          · rw [if_pos hv]
            refine ⟨?_, by simp⟩
            intro off ho
            simp only [Res.ok.injEq, Option.some.injEq] at ho
            subst ho
            exact ⟨by omega, Or.inr ⟨ds, g1, g2, by rw [g3]⟩⟩
          · rw [if_neg hv]; simp
      · rw [if_neg h1]
        cases hr : decOffset (b1 :: rest) 0 with
        | err => simp
        | panic => simp
        | ok v =>
          obtain ⟨ds, g1, g2, g3⟩ := decOffset_ok _ _ _ hr
          simp only [Res.ok_bind, Res.ok.injEq, Option.some.injEq, reduceCtorEq, not_false_eq_true, and_true]
          intro off ho
          subst ho
          refine ⟨?_, Or.inl ⟨ds, g1, g2, ?_⟩⟩
          · have hb : ∀ (l : List Nat) v, (∀ d ∈ l, d < 10) → l.foldl (fun v d => v * 10 + d) v < (v + 1) * 10 ^ l.length := by
              intro l
              induction l with
              | nil => intro v _; simp
              | cons d l ih =>
                intro v hd
                have := ih (v * 10 + d) (fun x hx => hd x (by simp [hx]))
                have h1 := hd d (by simp)
                rw [List.foldl_cons, List.length_cons, Nat.pow_succ, Nat.mul_comm (10 ^ l.length) 10, ← Nat.mul_assoc]
                exact Nat.lt_of_lt_of_le this (Nat.mul_le_mul_right _ (by omega))
            have hlen : ds.length ≤ 7 := by
              simp only [List.length_cons] at hl
              rcases g3 with g3 | ⟨r, g3⟩
              · have := congrArg List.length g3; simp at this; omega
              · have := congrArg List.length g3; simp at this; omega
            have := hb ds 0 g1
            have h10 : 10 ^ ds.length ≤ 10 ^ 7 := Nat.pow_le_pow_right (by decide) hlen
            rw [g2]; omega
          · rcases g3 with g3 | ⟨r, g3⟩
            · exact Or.inl (by rw [g3])
            · exact Or.inr ⟨r, by rw [g3]; rfl⟩
    · simp [h0]

private theorem strings_at {data pre out s : List UInt8} {o size off : Nat} (hlen : data.length < 2 ^ 64)
    (ha : At data o (pre ++ out)) (hs : size = (pre ++ out).length) (h0 : 0 < size)
    (h : stringTableGet (some (pre ++ out)) 0 size off = .ok s) : StrTable.get (some (o, o + size)) data off = .ok s := by
  have hle : o + size ≤ data.length := by
    have := at_le ha (by intro hc; rw [hc] at hs; simp at hs; omega)
    omega
  have hl : (pre ++ out).length < 2 ^ 64 := by omega
  have h1 : StrTable.get (some (0, size)) (pre ++ out) off = .ok s := h
  obtain ⟨start, stop, e, g1, g2, g3, g4⟩ := (C42_string_lookup (some (0, size)) (pre ++ out) off s hl).1.1 h1
  simp at e
  obtain ⟨rfl, rfl⟩ := e
  refine (C42_string_lookup _ data off s hlen).1.2 ⟨o, o + size, rfl, hle, by omega, ?_, g4⟩
  unfold At at ha g3 ⊢
  rw [← ha] at g3
  have hb : off + (s ++ [0]).length ≤ (pre ++ out).length := by
    have : (s ++ [(0 : UInt8)]).length = s.length + 1 := by simp
    omega
  rw [slice_slice _ _ _ _ _ (by omega)] at g3
  simpa using g3

private theorem untilNul_pad (s : List UInt8) (h : (0 : UInt8) ∉ s) (n : Nat) : untilNul (s ++ List.replicate n 0) = s := by
  unfold untilNul
  cases n with
  | zero =>
    have : memchr 0 (s ++ List.replicate 0 0) = none := by
      rw [memchr_none_iff]; simpa using h
    rw [this]; simp
  | succ n =>
    rw [List.replicate_succ, memchr_append h]
    simp

theorem coffNames (ss : List (List UInt8)) (size o : Nat) (t' : StrTab) (out data : List UInt8) (hcount : ss.length ≤ 2 ^ 32)
    (hnul : ∀ s ∈ ss, (0 : UInt8) ∉ s) (hlen : data.length < 2 ^ 64)
    (hw : StrTab.write (addNames StrTab.new ss).2 4 = (.ok size, t', out)) (ha : At data o (strtabBytes size out)) :
    ∀ (i : Nat) (s : List UInt8), ss[i]? = some s → ∃ n, (addNames StrTab.new ss).1[i]? = some n ∧
      (∃ b, sectionName t' n = .ok b ∧ b.length = 8 ∧
        (8 < s.length ∨ s.head? ≠ some 47 → readSectionName (some (o, o + size)) data b = .ok s)) ∧
      (∃ b, Coff.symbolName t' n = .ok b ∧ b.length = 8 ∧
        (s ≠ [] → readSymbolName (some (o, o + size)) data b = .ok s)) := by
  intro i s hi
  have hs0 := hnul s (List.mem_of_getElem? hi)
  obtain ⟨g1, g2⟩ := addNames_get StrTab.new (by simp [StrTab.new]) ss i s hi
  by_cases hl : 8 < s.length
  · obtain ⟨k, hk1, hk2⟩ := g1 hl
    have htab := addNames_table StrTab.new ss
    have hstr := write_strings _ _ _ _ _ hw
    have hmem : s ∈ ss.filter fun s => decide (8 < s.length) := by
      rw [List.mem_filter]; exact ⟨List.mem_of_getElem? hi, by simpa using hl⟩
    rw [htab] at hw
    have hpre : (wr .little 4 size).length = 4 := by simp
    rw [← hpre] at hw
    obtain ⟨e1, e2, e3⟩ := C09_string_table_round_trip (wr .little 4 size) _ size t' out
      (Nat.le_trans (List.length_filter_le _ _) hcount)
      (Or.inl ⟨s, hmem, by intro hc; subst hc; simp at hl⟩) hw
    obtain ⟨id, off, f1, f2, f3⟩ := e3 s hmem
    have hid : id = k % U32 := by
      unfold StrTab.getId at f1
      rw [hstr, hk2] at f1
      simpa using f1.symm
    subst hid
    have hoff : off < 2 ^ 32 := by
      have h1 : StrTable.get (some (0, size)) (wr .little 4 size ++ out) off = .ok s := f3
      obtain ⟨start, stop, e, q1, q2, q3, q4⟩ := (C42_string_lookup (some (0, size)) _ off s (by omega)).1.1 h1
      simp at e
      omega
    have hget := strings_at hlen ha e1 (by rw [e1, List.length_append, hpre]; omega) f3
    refine ⟨_, hk1, ?_, ?_⟩
    · obtain ⟨name, h1, h2, h3⟩ := longName_spec off hoff
      refine ⟨name, ?_, h3, ?_⟩
      · show (t'.getOffset (k % U32)).bind longName = _
        rw [f2]; exact h1
      · intro _
        unfold readSectionName
        rw [nameOffset_of off name h2 hoff]
        exact hget
    · refine ⟨List.replicate 4 0 ++ wr .little 4 off, ?_, ?_, ?_⟩
      · show (t'.getOffset (k % U32)).bind _ = _
        rw [f2]; rfl
      · simp
      · intro _
        unfold readSymbolName
        have : field .little (List.replicate 4 0 ++ wr .little 4 off) 4 4 = off := by
          unfold field
          rw [List.drop_append_of_le_length (by simp)]
          simp [List.take_of_length_le, rd_wr .little 4 off (by omega)]
        show (if (0 : UInt8) = 0 then StrTable.get (some (o, o + size)) data (field .little (List.replicate 4 0 ++ wr .little 4 off) 4 4) else _) = _
        rw [if_pos rfl, this]
        exact hget
  · have hl' : s.length ≤ 8 := by omega
    refine ⟨_, g2 hl', ⟨_, rfl, by simp; omega, ?_⟩, ⟨_, rfl, by simp; omega, ?_⟩⟩
    · intro h
      have hh : s.head? ≠ some 47 := h.resolve_left hl
      unfold readSectionName
      have : nameOffset (s ++ List.replicate (8 - s.length) 0) = .ok none := by
        match s, hl', hh with
        | [], _, _ => rfl
        | [a], _, hh =>
          have : a ≠ 47 := by simpa using hh
          simp [nameOffset, List.replicate_succ, this]
        | a :: b :: r, _, hh =>
          have : a ≠ 47 := by simpa using hh
          simp [nameOffset, this]
      rw [this]
      simp only [Res.ok_bind]
      rw [untilNul_pad s hs0]
    · intro hne
      cases s with
      | nil => exact absurd rfl hne
      | cons a s =>
        have ha0 : a ≠ 0 := by
          intro hc; subst hc; simp at hs0
        show (if a = 0 then _ else Res.ok (untilNul (a :: s ++ List.replicate (8 - (a :: s).length) 0))) = _
        rw [if_neg ha0, untilNul_pad _ hs0]

/-- C31: the name field that the writer stores for a section name refers to the name that was added: with the string table of
the file after all names were added, it is read back unless it is short and starts with `/` (which the reader takes for an
offset). -/
theorem C31_section_names (ss : List (List UInt8)) (size o : Nat) (t' : StrTab) (out data : List UInt8)
    (hcount : ss.length ≤ 2 ^ 32) (hnul : ∀ s ∈ ss, (0 : UInt8) ∉ s) (hlen : data.length < 2 ^ 64)
    (hw : StrTab.write (addNames StrTab.new ss).2 4 = (.ok size, t', out)) (ha : At data o (strtabBytes size out))
    (i : Nat) (s : List UInt8) (hi : ss[i]? = some s) (hs : 8 < s.length ∨ s.head? ≠ some 47) :
    ∃ n b, (addNames StrTab.new ss).1[i]? = some n ∧ sectionName t' n = .ok b ∧ b.length = 8 ∧
      readSectionName (some (o, o + size)) data b = .ok s := by
  obtain ⟨n, h1, ⟨b, h2, h3, h4⟩, -⟩ := coffNames ss size o t' out data hcount hnul hlen hw ha i s hi
  exact ⟨n, b, h1, h2, h3, h4 hs⟩

/-- C53: likewise for symbol names, unless they are empty (an empty name is read as the string at offset 0, i.e. as the bytes
of the length of the string table). -/
theorem C53_symbol_names (ss : List (List UInt8)) (size o : Nat) (t' : StrTab) (out data : List UInt8)
    (hcount : ss.length ≤ 2 ^ 32) (hnul : ∀ s ∈ ss, (0 : UInt8) ∉ s) (hlen : data.length < 2 ^ 64)
    (hw : StrTab.write (addNames StrTab.new ss).2 4 = (.ok size, t', out)) (ha : At data o (strtabBytes size out))
    (i : Nat) (s : List UInt8) (hi : ss[i]? = some s) (hs : s ≠ []) :
    ∃ n b, (addNames StrTab.new ss).1[i]? = some n ∧ Coff.symbolName t' n = .ok b ∧ b.length = 8 ∧
      readSymbolName (some (o, o + size)) data b = .ok s := by
  obtain ⟨n, h1, -, ⟨b, h2, h3, h4⟩⟩ := coffNames ss size o t' out data hcount hnul hlen hw ha i s hi
  exact ⟨n, b, h1, h2, h3, h4 hs⟩

/-- Four names, two of them long with a shared suffix, of a file with the string table at 3: the write succeeds and the names
are read back (sections: the last one is not, as it starts with a slash). -/
example :
    let ss := ["section_name".toUTF8.toList, ".text".toUTF8.toList, "n_long_section_name".toUTF8.toList, "/4".toUTF8.toList]
    let r := addNames StrTab.new ss
    let w := StrTab.write r.2 4
    let data := [1, 2, 3] ++ strtabBytes 24 w.2.2
    w.1 = .ok 24 ∧
    r.1.map (fun n => (sectionName w.2.1 n).bind (readSectionName (some (3, 27)) data)) =
      [.ok "section_name".toUTF8.toList, .ok ".text".toUTF8.toList, .ok "n_long_section_name".toUTF8.toList,
       .ok "n_long_section_name".toUTF8.toList] ∧
    r.1.map (fun n => (Coff.symbolName w.2.1 n).bind (readSymbolName (some (3, 27)) data)) =
      [.ok "section_name".toUTF8.toList, .ok ".text".toUTF8.toList, .ok "n_long_section_name".toUTF8.toList,
       .ok "/4".toUTF8.toList] := by
  decide +kernel

/-- The largest offset needs base 64, 9999999 does not. -/
example : longName 0xffffffff = .ok "//D/////".toUTF8.toList ∧ longName 9999999 = .ok "/9999999".toUTF8.toList ∧
    longName 10000000 = .ok "//AAmJaA".toUTF8.toList ∧ nameOffset "//EAAAAA".toUTF8.toList = .err := by
  decide +kernel

/-! ## C32: relocations -/

/-- C32: for any number of relocations below 2^32-1, the section header and relocations that the writer emits make the reader
return exactly those relocations, in order; the space reserved for them is the space used.  (A section given the overflow flag
by the user and exactly 0xffff relocations is the exception.) -/
theorem C32_round_trip (t : StrTab) (s : WSection) (hs : WSectionFits s) (rs : List Reloc) (hr : ∀ r ∈ rs, RelocFits r)
    (hn : rs.length < 2 ^ 32 - 1) (hc : s.numberOfRelocations = rs.length) (flags : Nat)
    (hflags : s.characteristics = relocFlags rs.length flags) (hex : flags &&& 0x1000000 = 0x1000000 → rs.length ≠ 0xffff)
    (img bytes data : List UInt8) (hname : ∀ b, sectionName t s.name = .ok b → b.length = 8)
    (hw : writeSection t s = .ok img) (hb : writeRelocations rs = .ok bytes)
    (hlen : data.length < 2 ^ 64) (ha : At data s.pointerToRelocations bytes) :
    (Section.decode img).relocations data = .ok rs ∧ bytes.length = relocationsLen rs.length := by
  obtain ⟨hs1, hs2, hs3, hs4, hs5, hs6⟩ := hs
  unfold writeSection at hw
  cases hnm : sectionName t s.name with
  | err => rw [hnm] at hw; simp at hw
  | panic => rw [hnm] at hw; simp at hw
  | ok nm =>
    rw [hnm] at hw
    simp only [Res.ok_bind, Res.ok.injEq] at hw
    have h8 := hname nm hnm
    have hdec := Section.decode_encode ⟨nm, 0, 0, s.sizeOfRawData, s.pointerToRawData, s.pointerToRelocations,
      s.pointerToLinenumbers, if 0xffff < s.numberOfRelocations then 0xffff else s.numberOfRelocations % U16, 0,
      s.characteristics⟩ h8 (by show (0:Nat) < 2 ^ 32; decide) (by show (0:Nat) < 2 ^ 32; decide) hs1 hs2 hs3 hs4
      (by show (if 0xffff < s.numberOfRelocations then 0xffff else s.numberOfRelocations % U16) < 2 ^ 16; split <;> omega)
      (by show (0:Nat) < 2 ^ 16; decide) hs6 []
    rw [List.append_nil, hw] at hdec
    have hl := length_flatMap_const Reloc.encode 10 rs (fun r _ => Reloc.length_encode r)
    have hmap : (rs.map Reloc.encode).map Reloc.decode = rs := by
      rw [List.map_map]
      rw [show rs = rs.map id by simp]
      rw [List.map_map]
      refine List.map_congr_left fun r hrm => ?_
      have := Reloc.decode_encode r (hr r hrm) []
      simpa using this
    rw [hdec]
    unfold writeRelocations at hb
    unfold Section.relocations
    by_cases hemp : rs = []
    · subst hemp
      simp at hb
      subst hb
      simp only [List.length_nil] at hc
      rw [hc]
      constructor
      · simp [readSliceAt, ReadRef.readSlice, ReadRef.readBytes, ReadRef.readBytesAt, Bytes.chunks]
      · rfl
    · have : rs.isEmpty = false := by simpa using hemp
      rw [this] at hb
      simp only [Bool.false_eq_true, if_false] at hb
      have hpos : 0 < rs.length := List.length_pos_iff.2 hemp
      unfold relocationsCount at hb
      by_cases hbig : 0xffff < rs.length
      · rw [if_pos hbig, if_neg (by omega)] at hb
        simp only [Res.ok_bind, Res.ok.injEq] at hb
        have hmod : rs.length % U32 = rs.length := Nat.mod_eq_of_lt (by omega)
        rw [hmod] at hb
        subst hb
        rw [at_append, Reloc.length_encode] at ha
        have hrd := at_read ha.1
        rw [Reloc.length_encode] at hrd
        have hfl : s.characteristics &&& 0x1000000 = 0x1000000 := by
          rw [hflags]; unfold relocFlags; rw [if_pos hbig]
          rw [Nat.and_or_distrib_right]
          apply Nat.eq_of_testBit_eq
          intro i
          simp only [Nat.testBit_or, Nat.testBit_and]
          cases Nat.testBit 0x1000000 i <;> simp
        simp only [hc, if_pos hbig, true_and, if_pos hfl, hrd, Res.ok_bind]
        have hdr := Reloc.decode_encode ⟨rs.length + 1, 0, 0⟩ ⟨by show rs.length + 1 < 2 ^ 32; omega, by show (0:Nat) < 2 ^ 32; decide, by show (0:Nat) < 2 ^ 16; decide⟩ []
        rw [List.append_nil] at hdr
        rw [hdr]
        constructor
        · rw [if_neg (by simp)]
          simp only [Nat.add_sub_cancel]
          rw [readSliceAt_flatMap Reloc.encode 10 rs (fun r _ => Reloc.length_encode r) hlen ha.2]
          simp only [Res.ok_bind, hmap]
        · rw [List.length_append, hl, Reloc.length_encode]
          unfold relocationsLen
          rw [if_neg (by omega), if_pos hbig]
          omega
      · rw [if_neg hbig] at hb
        simp only [Res.ok_bind, Res.ok.injEq, List.nil_append] at hb
        subst hb
        have hno : ¬ (rs.length % U16 = 0xffff ∧ s.characteristics &&& 0x1000000 = 0x1000000) := by
          rintro ⟨h1, h2⟩
          have h3 : rs.length = 0xffff := by omega
          rw [hflags] at h2; unfold relocFlags at h2; rw [if_neg hbig] at h2
          exact hex h2 h3
        simp only [hc, if_neg hbig]
        rw [if_neg hno, Nat.mod_eq_of_lt (by omega)]
        constructor
        · rw [readSliceAt_flatMap Reloc.encode 10 rs (fun r _ => Reloc.length_encode r) hlen ha]
          simp only [Res.ok_bind, hmap]
        · rw [hl]; unfold relocationsLen; rw [if_neg (by omega), if_neg hbig]

/-- C32: if the header says that the number of relocations is in the first record and that number, which counts the record
itself, is zero, or the record is not in the file, then the relocations are an error; otherwise it is the number of records that
follow, plus one. -/
theorem C32_overflow_count (s : Coff.Section) (data : List UInt8) (h1 : s.numberOfRelocations = 0xffff)
    (h2 : s.characteristics &&& 0x1000000 = 0x1000000) :
    (∀ img, ReadRef.readBytesAt data s.pointerToRelocations 10 = .ok img → (Reloc.decode img).virtualAddress = 0 →
      s.relocations data = .err) ∧
    (ReadRef.readBytesAt data s.pointerToRelocations 10 = .err → s.relocations data = .err) ∧
    ∀ img rs, ReadRef.readBytesAt data s.pointerToRelocations 10 = .ok img → s.relocations data = .ok rs →
      rs.length + 1 = (Reloc.decode img).virtualAddress := by
  unfold Section.relocations
  simp only
  rw [if_pos ⟨h1, h2⟩]
  refine ⟨fun img hi h0 => ?_, fun hi => ?_, fun img rs hi hr => ?_⟩
  · rw [hi]; exact if_pos h0
  · rw [hi]; rfl
  · rw [hi] at hr
    simp only [Res.ok_bind] at hr
    split at hr
    · simp at hr
    · rename_i hne
      cases hs : readSliceAt data (s.pointerToRelocations + 10) 10 ((Reloc.decode img).virtualAddress - 1) with
      | err => rw [hs] at hr; simp at hr
      | panic => rw [hs] at hr; simp at hr
      | ok imgs =>
        rw [hs] at hr
        simp only [Res.ok_bind, Res.ok.injEq] at hr
        have := (readSlice_ok (o' := (ReadRef.readSlice data (s.pointerToRelocations + 10) 10
          ((Reloc.decode img).virtualAddress - 1)).2) (Prod.ext hs rfl)).1
        rw [← hr, List.length_map, this, length_chunks]
        omega

/-- A section with 70000 relocations (so that the count does not fit in 16 bits) can be written and meets the hypotheses. -/
example : ∃ (s : WSection) (rs : List Reloc) (img bytes data : List UInt8), WSectionFits s ∧ (∀ r ∈ rs, RelocFits r) ∧ rs.length = 70000 ∧
    s.numberOfRelocations = rs.length ∧ s.characteristics = relocFlags rs.length 0x60000020 ∧
    writeSection StrTab.new s = .ok img ∧ writeRelocations rs = .ok bytes ∧ data.length < 2 ^ 64 ∧ At data s.pointerToRelocations bytes := by
  have hl := length_flatMap_const Reloc.encode 10 (List.replicate 70000 ⟨16, 3, 4⟩) (fun r _ => Reloc.length_encode r)
  generalize hrs : List.replicate 70000 (⟨16, 3, 4⟩ : Reloc) = rs at hl
  have h7 : rs.length = 70000 := by rw [← hrs, List.length_replicate]
  have hne : rs.isEmpty = false := by rw [← hrs, List.isEmpty_replicate]; rfl
  refine ⟨⟨.short (".text".toUTF8.toList ++ [0, 0, 0]), 100, 60, 60, 0, 70000, 0, 0x61000020⟩, rs, _,
    Reloc.encode ⟨70001, 0, 0⟩ ++ rs.flatMap Reloc.encode,
    List.replicate 60 0 ++ ((Reloc.encode ⟨70001, 0, 0⟩ ++ rs.flatMap Reloc.encode) ++ []),
    ⟨by decide, by decide, by decide, by decide, by decide, by decide⟩,
    ?_, h7, h7.symm, ?_, rfl, ?_, ?_, ?_⟩
  · intro r hr
    rw [← hrs] at hr
    rw [List.eq_of_mem_replicate hr]; decide
  · rw [h7]; decide
  · unfold writeRelocations relocationsCount
    rw [hne, h7]; rfl
  · rw [List.length_append, List.length_append, List.length_append, hl, h7, Reloc.length_encode, List.length_replicate]
    decide
  · exact slice_of_append (by simp) rfl

/-! ## C53: symbols -/

/-- C53: any list of symbols with any auxiliary records that fit is written as a table whose number of records is the sum of
those reserved, and is read back: iterating yields every symbol with its index, each can be looked up by index, and its
auxiliary records are read as they were written (a relocation count above 0xffff is clamped, and the upper half of the number
of an associated section is ignored); the strings follow the symbols. -/
theorem C53_symbol_table (tab : StrTab) (es : List Entry) (hes : ∀ e ∈ es, e.Fits) (hdr : Header) (hbig : hdr.big = false)
    (hptr : hdr.pointerToSymbolTable ≠ 0) (hnum : hdr.numberOfSymbols = records es) (size : Nat) (out data : List UInt8)
    (hsize : size < 2 ^ 32) (hlen : data.length < 2 ^ 63)
    (hptr' : hdr.pointerToSymbolTable < 2 ^ 32) :
    ∃ bs, entriesBytes tab es = .ok bs ∧ bs.length = 18 * records es ∧
      (At data hdr.pointerToSymbolTable (bs ++ strtabBytes size out) → ∃ t, SymTab.parse hdr data = .ok t ∧
        t.strings = some (hdr.pointerToSymbolTable + bs.length, hdr.pointerToSymbolTable + bs.length + size) ∧
        Runs t.next 0 ((indexed 0 es).map fun p => (p.1, p.2.symbol)) .done ∧
        ∀ p ∈ indexed 0 es, t.symbol p.1 = .ok p.2.symbol ∧ AuxRead t p.1 p.2.aux) := by
  obtain ⟨bs, hb, hl⟩ := entries_ok tab es hes
  refine ⟨bs, hb, hl, fun ha => ?_⟩
  rw [at_append, strtabBytes, at_append] at ha
  obtain ⟨ha1, ha2, -⟩ := ha
  have hle : hdr.pointerToSymbolTable + bs.length + 4 ≤ data.length := by
    have := at_le ha2 (by intro hc; have := congrArg List.length hc; simp at this)
    simpa using this
  have hrd := at_read ha1
  have hrd4 := at_read ha2
  rw [length_wr] at hrd4
  have hparse : SymTab.parse hdr data = .ok ⟨false, Bytes.chunks 18 (records es) bs,
      some (hdr.pointerToSymbolTable + bs.length, hdr.pointerToSymbolTable + bs.length + size)⟩ := by
    unfold Coff.SymTab.parse ReadRef.readSlice ReadRef.readBytes symbolSize
    rw [if_pos hptr, hbig, hnum]
    simp only [Bool.false_eq_true, if_false]
    rw [if_neg (by omega), show records es * 18 = bs.length by omega, hrd]
    simp only
    rw [Nat.mod_eq_of_lt (by omega), hrd4]
    simp only
    rw [rd_wr .little 4 size (by omega), if_neg (by omega)]
  refine ⟨_, hparse, rfl, ?_⟩
  have hget : ∀ i off sz img, At bs (18 * (i + off)) img → img.length = 18 → i + off < records es → sz ≤ 18 →
      SymTab.get ⟨false, Bytes.chunks 18 (records es) bs,
        some (hdr.pointerToSymbolTable + bs.length, hdr.pointerToSymbolTable + bs.length + size)⟩ i off sz = .ok (img.take sz) := by
    intro i off sz img h1 h2 h3 h4
    unfold SymTab.get
    rw [if_neg (by omega)]
    simp only
    rw [chunks_get _ _ _ _ h3]
    unfold At at h1
    rw [h2] at h1
    simp only [h1, Bytes.read, Bytes.readBytes, h2]
    rw [if_pos h4]
  have hat : ∀ p ∈ indexed 0 es, p.2 ∈ es ∧ p.1 + (1 + p.2.aux.count) ≤ records es ∧
      At bs (18 * p.1) (symImg p.2) ∧ At bs (18 * (p.1 + 1)) (auxImg p.2.aux) := by
    intro p hp
    obtain ⟨g1, g2, g3⟩ := entries_at tab es hes bs hb [] 0 rfl p hp
    rw [List.nil_append, at_append, length_symImg _ (hes _ g1).name] at g3
    exact ⟨g1, by omega, g3.1, by rw [Nat.mul_add]; exact g3.2⟩
  have hsym : ∀ p ∈ indexed 0 es, SymTab.symbol ⟨false, Bytes.chunks 18 (records es) bs,
        some (hdr.pointerToSymbolTable + bs.length, hdr.pointerToSymbolTable + bs.length + size)⟩ p.1 = .ok p.2.symbol := by
    intro p hp
    obtain ⟨g1, g2, g3, g4⟩ := hat p hp
    unfold Coff.SymTab.symbol symbolSize
    simp only [Bool.false_eq_true, if_false]
    rw [hget p.1 0 18 _ g3 (length_symImg _ (hes _ g1).name) (by omega) (by omega)]
    simp only [Res.ok_bind]
    rw [List.take_of_length_le (by rw [length_symImg _ (hes _ g1).name]; omega), decode_symImg _ (hes _ g1)]
  constructor
  · have hend : ∀ i, records es ≤ i → SymTab.next ⟨false, Bytes.chunks 18 (records es) bs,
        some (hdr.pointerToSymbolTable + bs.length, hdr.pointerToSymbolTable + bs.length + size)⟩ i = (.ok none, i) := by
      intro i hi
      unfold SymTab.next Coff.SymTab.symbol SymTab.get
      simp only [Nat.add_zero]
      rw [chunks_none _ _ _ _ hi]
      by_cases hu : U64 ≤ i
      · rw [if_pos hu]; rfl
      · rw [if_neg hu]; rfl
    have hrun : ∀ (l : List Entry) (k : Nat), (∀ p ∈ indexed k l, p ∈ indexed 0 es) → k + records l = records es →
        Runs (SymTab.next ⟨false, Bytes.chunks 18 (records es) bs,
          some (hdr.pointerToSymbolTable + bs.length, hdr.pointerToSymbolTable + bs.length + size)⟩) k
          ((indexed k l).map fun p => (p.1, p.2.symbol)) .done := by
      intro l
      induction l with
      | nil =>
        intro k _ hk
        exact .done (s' := k) (hend k (by simp [records] at hk ⊢; omega))
      | cons e l ih =>
        intro k hsub hk
        have h1 := hsub (k, e) (by simp [indexed])
        refine .item (s' := k + (1 + e.aux.count)) ?_ (ih _ (fun p hp => hsub p (by simp [indexed, hp])) ?_)
        · unfold SymTab.next
          rw [hsym _ h1]
          have := (hat _ h1).2.1
          exact if_neg (by show ¬ U64 ≤ k + (1 + e.aux.count); simp only at this; omega)
        · simp only [records, List.map_cons, List.sum_cons] at hk ⊢
          omega
    exact hrun es 0 (fun p h => h) (by omega)
  · intro p hp
    refine ⟨hsym p hp, ?_⟩
    obtain ⟨g1, g2, g3, g4⟩ := hat p hp
    have hfit := (hes _ g1).aux
    have hla := length_auxImg p.2.aux
    have hz := fun w v fs h => field_encode_zero .little w v fs [] h
    have hsu := fun w v fs off w' h => field_encode_succ .little w v fs [] off w' h
    simp only [List.append_nil] at hz hsu
    cases hx : p.2.aux with
    | none => trivial
    | «section» a =>
      rw [hx] at hfit g2 g4 hla
      obtain ⟨f1, f2, f3, f4, f5, f6⟩ := hfit
      show SymTab.auxSection _ _ = _
      unfold SymTab.auxSection
      rw [hget p.1 1 18 _ g4 hla (by simp only [Aux.count] at g2; omega) (by omega)]
      simp only [Res.ok_bind, Bool.false_eq_true, if_false]
      rw [List.take_of_length_le (by rw [hla]; simp [Aux.count])]
      simp only [auxImg, auxSection]
      congr 1
      congr 1
      · exact hz _ _ _ (by omega)
      · rw [hsu _ _ _ _ _ (by decide)]
        rw [show (4 - 4) = 0 from rfl, hz _ _ _ (by split <;> omega)]
        split <;> omega
      · iterate 2 rw [hsu _ _ _ _ _ (by decide)]
        exact hz _ _ _ (by omega)
      · iterate 3 rw [hsu _ _ _ _ _ (by decide)]
        exact hz _ _ _ (by omega)
      · iterate 4 rw [hsu _ _ _ _ _ (by decide)]
        exact hz _ _ _ (by omega)
      · iterate 5 rw [hsu _ _ _ _ _ (by decide)]
        exact hz _ _ _ (by omega)
    | weak d s =>
      rw [hx] at hfit g2 g4 hla
      obtain ⟨f1, f2⟩ := hfit
      show SymTab.auxWeak _ _ = _
      unfold SymTab.auxWeak
      rw [hget p.1 1 8 _ g4 hla (by simp only [Aux.count] at g2; omega) (by omega)]
      simp only [Res.ok_bind, auxImg, auxWeak]
      rw [List.take_left' (by simp)]
      rw [hz _ _ _ (by omega), hsu _ _ _ _ _ (by decide), show (4 - 4) = 0 from rfl, hz _ _ _ (by omega)]
    | file name =>
      rw [hx] at hfit g2 g4 hla
      obtain ⟨f1, f2⟩ := hfit
      show SymTab.auxFileName _ _ _ = _
      unfold SymTab.auxFileName
      simp only [Aux.count] at g2 hla
      simp only [length_chunks]
      rw [if_neg (by omega), if_neg (by omega), chunks_range _ _ _ _ _ (by omega) (by omega)]
      unfold At at g4
      rw [hla, Nat.mul_comm 18 ((name.length + 17) / 18)] at g4
      rw [g4]
      simp only [auxImg]
      rw [untilNul_pad _ f2]

/-- A file symbol, a section symbol with its record, a weak symbol and a negative section number. -/
example :
    let n := fun s : String => s.toUTF8.toList ++ List.replicate (8 - s.toUTF8.toList.length) (0 : UInt8)
    let es : List Entry := [⟨n ".file", 0, -2, 0, 0x67, .file "a_rather_long_file_name.c".toUTF8.toList⟩,
      ⟨n ".text", 0, 1, 0, 3, .section ⟨100, 70000, 0, 7, 0x10002, 5⟩⟩, ⟨n "weak", 16, 0xfeff, 0x20, 0x69, .weak 3 2⟩,
      ⟨n "abs", 0xffffffff, -1, 0, 2, .none⟩]
    (∀ e ∈ es, e.Fits) ∧ records es = 8 ∧
    (indexed 0 es).map (fun p => p.1) = [0, 3, 5, 7] := by
  refine ⟨?_, by decide +kernel, by decide +kernel⟩
  intro e he
  simp only [List.mem_cons, List.not_mem_nil, or_false] at he
  rcases he with rfl | rfl | rfl | rfl
  · exact ⟨by decide +kernel, by decide +kernel, by decide +kernel, by decide +kernel, by decide +kernel, by show _ ∧ _; decide +kernel⟩
  · exact ⟨by decide +kernel, by decide +kernel, by decide +kernel, by decide +kernel, by decide +kernel, by show _ ∧ _; decide +kernel⟩
  · exact ⟨by decide +kernel, by decide +kernel, by decide +kernel, by decide +kernel, by decide +kernel, by show _ ∧ _; decide +kernel⟩
  · exact ⟨by decide +kernel, by decide +kernel, by decide +kernel, by decide +kernel, by decide +kernel, trivial⟩

/-! ## C54: reading untrusted COFF files -/

private theorem b64Offset_no_panic (l : List UInt8) (v : Nat) : b64Offset l v ≠ .panic := by
  induction l generalizing v with
  | nil => simp [b64Offset]
  | cons b l ih =>
    unfold b64Offset
    simp only
    repeat' split
    all_goals first | exact ih _ | simp

private theorem decOffset_no_panic (l : List UInt8) (v : Nat) (h : (v + 1) * 10 ^ l.length ≤ U32) : decOffset l v ≠ .panic := by
  induction l generalizing v with
  | nil => simp [decOffset]
  | cons b l ih =>
    rw [List.length_cons, Nat.pow_succ, Nat.mul_comm (10 ^ l.length) 10, ← Nat.mul_assoc] at h
    have hp : 1 ≤ 10 ^ l.length := Nat.one_le_pow _ _ (by decide)
    unfold decOffset
    by_cases hd : 48 ≤ b.toNat ∧ b.toNat ≤ 57
    · rw [if_pos hd]
      have h1 : (v * 10 + (b.toNat - 48) + 1) * 10 ^ l.length ≤ U32 :=
        Nat.le_trans (Nat.mul_le_mul_right _ (by omega)) h
      have h2 : (v + 1) * 10 * 1 ≤ (v + 1) * 10 * 10 ^ l.length := Nat.mul_le_mul_left _ hp
      rw [if_neg (by omega)]
      exact ih _ h1
    · rw [if_neg hd]
      split <;> simp

private theorem nameOffset_no_panic (name : List UInt8) (h : name.length = 8) : nameOffset name ≠ .panic := by
  match name, h with
  | b0 :: b1 :: rest, h =>
    unfold nameOffset
    simp only
    split
    · simp
    · split
      · refine Res.bind_no_panic (b64Offset_no_panic _ _) fun a _ => ?_
        split <;> simp
      · refine Res.bind_no_panic (decOffset_no_panic _ _ ?_) fun a _ => by simp
        simp only [List.length_cons] at h ⊢
        rw [show rest.length + 1 = 7 by omega]; decide

private theorem readSectionName_no_panic (strings : StrTable) (data name : List UInt8) (hlen : data.length < 2 ^ 64) (h : name.length = 8) :
    readSectionName strings data name ≠ .panic := by
  refine Res.bind_no_panic (nameOffset_no_panic name h) fun o _ => ?_
  cases o with
  | none => simp
  | some o => exact (C42_string_lookup strings data o [] hlen).2

private theorem readSymbolName_no_panic (strings : StrTable) (data name : List UInt8) (hlen : data.length < 2 ^ 64) (h : name.length = 8) :
    readSymbolName strings data name ≠ .panic := by
  match name, h with
  | b0 :: rest, h =>
    show (if b0 = 0 then _ else _) ≠ _
    split
    · exact (C42_string_lookup strings data _ [] hlen).2
    · simp

/-- C54: parsing the headers of a COFF object or bigobj never panics, and for every section of the table its name, data and
relocations can be requested without panicking; data that is returned is the part of the file that the header gives. -/
theorem C54_headers (data : List UInt8) (hlen : data.length < 2 ^ 64) (big : Bool) (offset : Nat) :
    parseHeader big data offset ≠ .panic ∧
    ∀ h o, parseHeader big data offset = .ok (h, o) →
      SymTab.parse h data ≠ .panic ∧ parseSections h data o ≠ .panic ∧
      ∀ ss, parseSections h data o = .ok ss → ss.length = h.numberOfSections ∧
        ∀ s ∈ ss, s.data data ≠ .panic ∧ s.relocations data ≠ .panic ∧
          (∀ b, s.data data = .ok b → b = [] ∨ (b = slice data s.pointerToRawData s.sizeOfRawData ∧ b.length = s.sizeOfRawData)) ∧
          (∀ strings, readSectionName strings data s.name ≠ .panic) := by
  have hrd : ∀ o n, (ReadRef.read data o n).1 ≠ .panic := by
    intro o n
    unfold ReadRef.read ReadRef.readBytes
    have := readRef_readBytesAt_no_panic data o n
    split <;> simp_all
  constructor
  · unfold Coff.parseHeader
    split
    · unfold parseBig
      have := hrd offset 56
      split
      · split <;> simp
      · simp
      · simp_all
    · unfold parseSmall
      have := hrd offset 20
      split
      · simp only; split <;> simp
      · simp
      · simp_all
  · intro h o _
    refine ⟨?_, ?_, ?_⟩
    · unfold Coff.SymTab.parse
      split
      · have h1 := readSliceAt_no_panic data h.pointerToSymbolTable (symbolSize h.big) h.numberOfSymbols
        unfold readSliceAt at h1
        split
        · rename_i syms off _
          have := readRef_readBytesAt_no_panic data off 4
          split
          · split <;> simp
          · simp
          · simp_all
        · simp
        · simp_all
      · simp
    · exact Res.bind_no_panic (readSliceAt_no_panic _ _ _ _) fun a _ => by simp
    · intro ss hss
      unfold parseSections at hss
      match hr : ReadRef.readSlice data o 40 h.numberOfSections with
      | (.err, o') => simp [readSliceAt, hr] at hss
      | (.panic, o') => simp [readSliceAt, hr] at hss
      | (.ok imgs, o') =>
        simp only [readSliceAt, hr, Res.ok_bind, Res.ok.injEq] at hss
        obtain ⟨e, hb, -, -⟩ := readSlice_ok hr
        subst hss
        refine ⟨by rw [List.length_map, e, length_chunks], ?_⟩
        intro s hs
        rw [List.mem_map] at hs
        obtain ⟨img, him, rfl⟩ := hs
        have h40 : img.length = 40 := by
          rw [e] at him
          exact (flatten_chunks 40 h.numberOfSections _ (by rw [length_slice_of hb]; omega)).2.1 img him
        refine ⟨?_, ?_, ?_, ?_⟩
        · unfold Section.data
          split
          · exact readRef_readBytesAt_no_panic _ _ _
          · simp
        · unfold Section.relocations
          simp only
          split
          · refine Res.bind_no_panic (readRef_readBytesAt_no_panic _ _ _) fun a _ => ?_
            split
            · simp
            · exact Res.bind_no_panic (readSliceAt_no_panic _ _ _ _) fun a _ => by simp
          · exact Res.bind_no_panic (readSliceAt_no_panic _ _ _ _) fun a _ => by simp
        · intro b hb
          unfold Section.data Section.fileRange at hb
          by_cases hc : (Section.decode img).characteristics &&& 0x80 = 0x80
          · rw [if_pos hc] at hb; left; simpa using hb.symm
          · rw [if_neg hc] at hb; right; exact readRef_readBytesAt_ok hb
        · intro strings
          refine readSectionName_no_panic strings data _ hlen ?_
          simp [Section.decode, h40]

private theorem symbol_no_panic (t : Coff.SymTab) (i : Nat) : t.symbol i ≠ .panic := by
  refine Res.bind_no_panic ?_ fun a _ => by simp
  unfold SymTab.get
  split
  · simp
  · split
    · unfold Bytes.read Bytes.readBytes
      repeat' split
      all_goals simp_all
    · simp

private theorem symbol_ok (t : Coff.SymTab) (hs : ∀ img ∈ t.symbols, img.length = symbolSize t.big) (i : Nat) (s : Symbol)
    (h : t.symbol i = .ok s) : i < t.symbols.length ∧ s.name.length = 8 ∧ s.auxCount < 256 := by
  unfold Coff.SymTab.symbol SymTab.get at h
  split at h
  · simp at h
  · rename_i hu
    simp only [Nat.add_zero] at h
    cases hg : t.symbols[i]? with
    | none => rw [hg] at h; simp at h
    | some img =>
      rw [hg] at h
      have hl := hs img (List.mem_of_getElem? hg)
      obtain ⟨hi, -⟩ := List.getElem?_eq_some_iff.1 hg
      simp only [Bytes.read, Bytes.readBytes] at h
      rw [if_pos (by omega)] at h
      simp only [Res.ok_bind, Res.ok.injEq] at h
      subst h
      refine ⟨hi, ?_, ?_⟩
      · have h8 : (img.take (symbolSize t.big)).length = symbolSize t.big := by rw [List.length_take, hl]; omega
        have h18 : 18 ≤ symbolSize t.big := by unfold symbolSize; split <;> decide
        unfold Symbol.decode
        split
        · show ((img.take _).take 8).length = 8
          rw [List.length_take, h8]; omega
        · show ((img.take _).take 8).length = 8
          rw [List.length_take, h8]; omega
      · have hf : ∀ l o, field .little l o 1 < 256 := by
          intro l o
          have := field_lt .little l o 1
          simpa using this
        unfold Symbol.decode
        split <;> exact hf _ _

private theorem next_cases (t : Coff.SymTab) (hn : t.symbols.length < 2 ^ 63) (hs : ∀ img ∈ t.symbols, img.length = symbolSize t.big) (i : Nat) :
    (t.next i = (.ok none, i) ∧ t.symbol i = .err) ∨
    ∃ s, t.symbol i = .ok s ∧ i < t.symbols.length ∧ t.next i = (.ok (some (i, s)), i + (1 + s.auxCount)) := by
  unfold SymTab.next
  cases h : t.symbol i with
  | err => left; simp
  | panic => exact absurd h (symbol_no_panic t i)
  | ok s =>
    right
    obtain ⟨h1, h2, h3⟩ := symbol_ok t hs i s h
    refine ⟨s, rfl, h1, ?_⟩
    exact if_neg (by omega)

/-- C54: for any symbol table that was parsed (from a file below 2^63 bytes), iterating over the symbols ends after at most as
many symbols as the table has records, in increasing order of index, without error or panic; names, auxiliary records and
addresses of symbols, looked up by any index, never panic. -/
theorem C54_symbols (h : Header) (data : List UInt8) (hlen : data.length < 2 ^ 63) (t : Coff.SymTab)
    (ht : Coff.SymTab.parse h data = .ok t) :
    (∃ xs, Runs t.next 0 xs .done ∧ xs.length ≤ t.symbols.length ∧ xs.Pairwise (fun a b => a.1 + a.2.auxCount < b.1) ∧
      ∀ p ∈ xs, t.symbol p.1 = .ok p.2) ∧
    (t.symbols.length = 0 ∨ t.symbols.length = h.numberOfSymbols ∧
      h.pointerToSymbolTable + h.numberOfSymbols * symbolSize h.big ≤ data.length) ∧
    ∀ i, t.symbol i ≠ .panic ∧ t.auxSection i ≠ .panic ∧ t.auxWeak i ≠ .panic ∧ (∀ n, t.auxFileName i n ≠ .panic) ∧
      ∀ s, t.symbol i = .ok s → t.nameBytes data i s ≠ .panic ∧ ∀ base ss, s.address base ss ≠ .panic := by
  have hp : (∀ img ∈ t.symbols, img.length = symbolSize t.big) ∧ (t.symbols.length = 0 ∨ t.symbols.length = h.numberOfSymbols ∧
      h.pointerToSymbolTable + h.numberOfSymbols * symbolSize h.big ≤ data.length) := by
    unfold Coff.SymTab.parse at ht
    split at ht
    · match hr : ReadRef.readSlice data h.pointerToSymbolTable (symbolSize h.big) h.numberOfSymbols with
      | (.err, o') => simp [hr] at ht
      | (.panic, o') => simp [hr] at ht
      | (.ok imgs, o') =>
        rw [hr] at ht
        simp only at ht
        obtain ⟨e, hb, -, -⟩ := readSlice_ok hr
        split at ht
        · split at ht
          · simp at ht
          · simp only [Res.ok.injEq] at ht
            subst ht
            refine ⟨?_, ?_⟩
            · simp only [e]
              exact (flatten_chunks _ _ _ (by rw [length_slice_of hb]; omega)).2.1
            · simp only [e, length_chunks]
              rcases hb with hb | hb
              · left
                have : symbolSize h.big ≠ 0 := by unfold symbolSize; split <;> decide
                exact (Nat.mul_eq_zero.1 hb).resolve_right this
              · exact Or.inr ⟨trivial, hb⟩
        · simp at ht
        · simp at ht
    · simp only [Res.ok.injEq] at ht
      subst ht
      exact ⟨by simp, Or.inl rfl⟩
  obtain ⟨hs, hn⟩ := hp
  have hl : t.symbols.length < 2 ^ 63 := by
    rcases hn with hn | ⟨hn, hb⟩
    · omega
    · have : 1 ≤ symbolSize h.big := by unfold symbolSize; split <;> decide
      have := Nat.mul_le_mul_left h.numberOfSymbols this
      omega
  have hnl := next_cases t hl hs
  have hget : ∀ i o n, t.get i o n ≠ .panic := by
    intro i o n
    unfold SymTab.get
    split
    · simp
    · split
      · unfold Bytes.read Bytes.readBytes
        repeat' split
        all_goals simp_all
      · simp
  have hfile : ∀ i n, t.auxFileName i n ≠ .panic := by
    intro i n
    unfold SymTab.auxFileName
    repeat' split
    all_goals simp
  refine ⟨?_, hn, ?_⟩
  · have hrun : ∀ m i, t.symbols.length - i = m → ∃ xs, Runs t.next i xs .done ∧ xs.length ≤ m ∧
        xs.Pairwise (fun a b => a.1 + a.2.auxCount < b.1) ∧ ∀ p ∈ xs, i ≤ p.1 ∧ t.symbol p.1 = .ok p.2 := by
      intro m
      induction m using Nat.strongRecOn with
      | _ m ih =>
        intro i hm
        rcases hnl i with ⟨h1, -⟩ | ⟨s, h1, h2, h3⟩
        · exact ⟨[], .done h1, by simp, List.Pairwise.nil, by simp⟩
        · obtain ⟨xs, g1, g2, g3, g4⟩ := ih (t.symbols.length - (i + (1 + s.auxCount))) (by omega) (i + (1 + s.auxCount)) rfl
          refine ⟨(i, s) :: xs, .item h3 g1, by simp; omega, ?_, ?_⟩
          · refine List.Pairwise.cons ?_ g3
            intro p hp
            have := (g4 p hp).1
            show i + s.auxCount < p.1
            omega
          · intro p hp
            rw [List.mem_cons] at hp
            rcases hp with rfl | hp
            · exact ⟨Nat.le_refl _, h1⟩
            · have := g4 p hp
              exact ⟨by omega, this.2⟩
    obtain ⟨xs, g1, g2, g3, g4⟩ := hrun _ 0 rfl
    exact ⟨xs, g1, by simpa using g2, g3, fun p hp => (g4 p hp).2⟩
  · intro i
    refine ⟨symbol_no_panic t i, Res.bind_no_panic (hget _ _ _) fun a _ => by simp,
      Res.bind_no_panic (hget _ _ _) fun a _ => by simp, hfile i, ?_⟩
    intro s hsi
    constructor
    · unfold SymTab.nameBytes
      split
      · exact hfile _ _
      · exact readSymbolName_no_panic _ _ _ (by omega) (symbol_ok t hs i s hsi).2.1
    · intro base ss
      unfold Symbol.address
      split
      · split
        · simp
        · refine Res.bind_no_panic ?_ fun a _ => by simp
          unfold sectionAt
          split
          · simp
          · have : ∀ o : Option Section, Res.ofOption o ≠ .panic := by intro o; cases o <;> simp
            exact this _
      · simp

/-- C54: a file name consists of the bytes before the first NUL of the auxiliary records that follow the symbol, all of which
must be in the table. -/
theorem C54_file_name (t : Coff.SymTab) (i n : Nat) (hu : t.symbols.length < 2 ^ 63) (name : List UInt8) :
    t.auxFileName i n = .ok name ↔ i + 1 + n ≤ t.symbols.length ∧ (0 : UInt8) ∉ name ∧
      (((t.symbols.drop (i + 1)).take n).flatten = name ∨ ∃ rest, ((t.symbols.drop (i + 1)).take n).flatten = name ++ 0 :: rest) := by
  unfold SymTab.auxFileName
  by_cases hb : t.symbols.length < i + 1 + n
  · constructor
    · intro h
      split at h
      · simp at h
      · simp at h
    · rintro ⟨h, -⟩; omega
  · rw [if_neg (by omega), if_neg hb]
    generalize ((t.symbols.drop (i + 1)).take n).flatten = l
    simp only [Res.ok.injEq]
    unfold untilNul
    constructor
    · intro h
      refine ⟨by omega, ?_⟩
      cases hm : memchr 0 l with
      | none =>
        rw [hm] at h
        simp only at h
        subst h
        exact ⟨(memchr_none_iff ..).1 hm, Or.inl rfl⟩
      | some k =>
        rw [hm] at h
        obtain ⟨pre, suf, rfl, h1, rfl⟩ := (memchr_some_iff ..).1 hm
        simp at h
        subst h
        exact ⟨h1, Or.inr ⟨suf, rfl⟩⟩
    · rintro ⟨-, h0, rfl | ⟨rest, rfl⟩⟩
      · rw [(memchr_none_iff ..).2 h0]
      · rw [memchr_append h0]; simp

/-- C54: a symbol of class static, weak external, label or external in a section has the address of the section plus its value
(modulo 2^64); other symbols have none. -/
theorem C54_address (s : Symbol) (base : Nat) (ss : List Coff.Section) :
    (∀ a, s.address base ss = .ok (some a) ↔ s.storageClass ∈ [3, 0x69, 6, 2] ∧ 0 < s.sectionNumber ∧
      ∃ sec, ss[s.sectionNumber.toNat - 1]? = some sec ∧ a = (base + sec.virtualAddress + s.value) % 2 ^ 64) ∧
    (s.address base ss = .ok none ↔ s.storageClass ∉ [3, 0x69, 6, 2] ∨ s.sectionNumber ≤ 0) := by
  unfold Symbol.address Symbol.section
  have hmem : s.storageClass ∈ [3, 0x69, 6, 2] ↔ (s.storageClass = 3 ∨ s.storageClass = 0x69 ∨ s.storageClass = 6 ∨ s.storageClass = 2) := by simp
  rw [hmem]
  by_cases hc : s.storageClass = 3 ∨ s.storageClass = 0x69 ∨ s.storageClass = 6 ∨ s.storageClass = 2
  · rw [if_pos hc]
    by_cases hn : 0 < s.sectionNumber
    · rw [if_pos hn]
      simp only [sectionAt]
      rw [if_neg (by omega)]
      cases hs : ss[s.sectionNumber.toNat - 1]? with
      | none => simp [hc, hn, Int.not_le]
      | some sec =>
        simp only [Res.ofOption_some, Res.ok_bind, Res.ok.injEq, Option.some.injEq, reduceCtorEq, false_iff]
        constructor
        · intro a
          have h64 : (2:Nat) ^ 64 = U64 := by decide
          rw [h64]
          constructor
          · rintro rfl
            exact ⟨hc, hn, sec, rfl, by omega⟩
          · rintro ⟨-, -, x, rfl, rfl⟩
            omega
        · rintro (h | h)
          · exact h hc
          · omega
    · rw [if_neg hn]
      simp [hn, Int.not_lt.1 hn]
  · rw [if_neg hc]
    simp [hc]

/-! ## C55: COMDAT groups -/

private theorem runs_length (t : Coff.SymTab) (i : Nat) (xs : List (Nat × Symbol)) (h : Runs t.next i xs .done) :
    xs = [] ∨ xs.length + i ≤ t.symbols.length := by
  generalize he : End.done = e at h
  induction h with
  | done _ => exact Or.inl rfl
  | err _ => exact Or.inl rfl
  | panic _ => exact Or.inl rfl
  | @item s s' x xs e h1 h2 ih =>
    right
    have hs : s < t.symbols.length ∧ s + 1 ≤ s' := by
      unfold SymTab.next at h1
      cases hsym : t.symbol s with
      | err => rw [hsym] at h1; simp at h1
      | panic => rw [hsym] at h1; simp at h1
      | ok y =>
        rw [hsym] at h1
        simp only at h1
        split at h1
        · simp at h1
        · simp only [Prod.mk.injEq] at h1
          refine ⟨?_, by omega⟩
          unfold Coff.SymTab.symbol SymTab.get at hsym
          split at hsym
          · simp at hsym
          · simp only [Nat.add_zero] at hsym
            cases hg : t.symbols[s]? with
            | none => rw [hg] at hsym; simp at hsym
            | some img => exact (List.getElem?_eq_some_iff.1 hg).1
    rcases ih he with rfl | ih
    · simp; omega
    · simp only [List.length_cons]; omega

private theorem next_item {t : Coff.SymTab} {i i' : Nat} {x : Nat × Symbol} (h : t.next i = (.ok (some x), i')) :
    x.1 = i ∧ t.symbol i = .ok x.2 ∧ i' = i + (1 + x.2.auxCount) ∧ i' < U64 := by
  unfold SymTab.next at h
  cases hsym : t.symbol i with
  | err => rw [hsym] at h; simp at h
  | panic => rw [hsym] at h; simp at h
  | ok y =>
    rw [hsym] at h
    simp only at h
    split at h
    · simp at h
    · simp only [Prod.mk.injEq, Res.ok.injEq, Option.some.injEq] at h
      obtain ⟨rfl, rfl⟩ := h
      exact ⟨rfl, rfl, rfl, by omega⟩

private theorem find_spec (t : Coff.SymTab) (n : Int) (fuel : Nat) : ∀ (i : Nat) (s : Symbol) (post : List (Nat × Symbol)),
    Runs t.next (i + (1 + s.auxCount)) post .done → i + (1 + s.auxCount) < U64 → post.length < fuel →
    findComdatSymbol t n fuel i s = .ok (post.find? fun p => p.2.sectionNumber == n) := by
  induction fuel with
  | zero => intro i s post _ _ h; omega
  | succ fuel ih =>
    intro i s post hr hu hf
    unfold findComdatSymbol
    rw [if_neg (by omega)]
    simp only
    cases hr with
    | done h1 =>
      unfold SymTab.next at h1
      cases hsym : t.symbol (i + (1 + s.auxCount)) with
      | err => rfl
      | panic => rw [hsym] at h1; simp at h1
      | ok y =>
        rw [hsym] at h1
        simp only at h1
        split at h1 <;> simp at h1
    | item h1 h2 =>
      rename_i s' x xs
      obtain ⟨e1, e2, e3, e4⟩ := next_item h1
      rw [e2]
      simp only
      by_cases hc : n = x.2.sectionNumber
      · rw [if_pos hc, List.find?_cons_of_pos (by simp [hc])]
        rw [← e1]
      · rw [if_neg hc, List.find?_cons_of_neg (by simp; omega)]
        subst e3
        exact ih _ _ _ h2 e4 (by simp at hf; omega)

private theorem auxSection_no_panic (t : Coff.SymTab) (i : Nat) : t.auxSection i ≠ .panic := by
  refine Res.bind_no_panic ?_ fun a _ => by simp
  unfold SymTab.get
  split
  · simp
  · split
    · unfold Bytes.read Bytes.readBytes
      repeat' split
      all_goals simp_all
    · simp

private theorem parse_spec (t : Coff.SymTab) (i : Nat) (s : Symbol) (post : List (Nat × Symbol))
    (hr : Runs t.next (i + (1 + s.auxCount)) post .done) (hu : i + (1 + s.auxCount) < U64) (hl : post.length < t.symbols.length + 1) :
    parseComdat t s i = .ok (comdatOf t i s post) := by
  unfold parseComdat comdatOf Symbol.hasAuxSection Symbol.section
  by_cases hc : 0 < s.auxCount ∧ s.storageClass = 3 ∧ s.typ = 0
  · obtain ⟨c1, c2, c3⟩ := hc
    simp only [c1, c2, c3, decide_true, beq_self_eq_true, Bool.and_self, Bool.not_true, Bool.false_eq_true, if_false, true_and]
    by_cases hn : 0 < s.sectionNumber
    · rw [if_pos hn, if_pos hn]
      simp only
      cases ha : t.auxSection i with
      | err => rfl
      | panic => exact absurd ha (auxSection_no_panic t i)
      | ok aux =>
        simp only
        rw [find_spec t _ _ i s post hr hu hl]
        by_cases hsel : aux.selection = 0 ∨ aux.selection = 5
        · rw [if_pos hsel]
          cases post.find? fun p => p.2.sectionNumber == s.sectionNumber with
          | none => rfl
          | some p => simp only; rw [if_pos hsel]
        · rw [if_neg hsel]
          simp only [Res.ok_bind]
          cases post.find? fun p => p.2.sectionNumber == s.sectionNumber with
          | none => rfl
          | some p => simp only; rw [if_neg hsel]
    · rw [if_neg hn, if_neg hn]
  · rw [if_pos, if_neg]
    · intro h; exact hc ⟨h.1, h.2.1, h.2.2.1⟩
    · simp only [Bool.not_eq_true', Bool.and_eq_false_iff, decide_eq_false_iff_not, beq_eq_false_iff_ne]
      by_cases c1 : 0 < s.auxCount
      · by_cases c2 : s.storageClass = 3
        · right; intro c3; exact hc ⟨c1, c2, c3⟩
        · left; right; exact c2
      · left; left; exact c1

private theorem comdat_loop (t : Coff.SymTab) (xs : List (Nat × Symbol)) : ∀ (fuel i : Nat), Runs t.next i xs .done → xs.length < fuel →
    (∃ i', comdatLoop t fuel i = (.ok none, i') ∧ comdatsOf t xs = []) ∨
    ∃ c cs i' post, comdatLoop t fuel i = (.ok (some c), i') ∧ comdatsOf t xs = c :: cs ∧ Runs t.next i' post .done ∧
      comdatsOf t post = cs ∧ post.length < xs.length := by
  induction xs with
  | nil =>
    intro fuel i hr hf
    obtain ⟨fuel, rfl⟩ : ∃ k, fuel = k + 1 := ⟨fuel - 1, by omega⟩
    left
    cases hr with
    | done h1 => unfold comdatLoop; rw [h1]; exact ⟨_, rfl, rfl⟩
  | cons x xs ih =>
    intro fuel i hr hf
    have hlen := runs_length t i _ hr
    obtain ⟨fuel, rfl⟩ : ∃ k, fuel = k + 1 := ⟨fuel - 1, by omega⟩
    cases hr with
    | @item _ i' _ _ _ h1 h2 =>
      obtain ⟨e1, e2, e3, e4⟩ := next_item h1
      have hp := parse_spec t i x.2 xs (e3 ▸ h2) (e3 ▸ e4) (by simp at hlen; omega)
      unfold comdatLoop
      rw [h1]
      obtain ⟨xi, xsym⟩ := x
      simp only at e1 hp
      subst e1
      simp only
      rw [hp]
      rw [comdatsOf]
      cases hcd : comdatOf t xi xsym xs with
      | some c =>
        right
        exact ⟨c, comdatsOf t xs, i', xs, rfl, rfl, h2, rfl, by simp⟩
      | none =>
        simp only [Option.toList, List.nil_append]
        rcases ih fuel i' h2 (by simp at hf; omega) with ⟨j, g1, g2⟩ | ⟨c, cs, j, post, g1, g2, g3, g4, g5⟩
        · exact Or.inl ⟨j, g1, g2⟩
        · exact Or.inr ⟨c, cs, j, post, g1, g2, g3, g4, by simp; omega⟩

/-- C55: the COMDAT iterator yields exactly the groups of the symbol table: one for each symbol of a section with a section
record whose selection is neither none nor associative, with the first later symbol in that section. -/
theorem C55_comdats (t : Coff.SymTab) (xs : List (Nat × Symbol)) (h : Runs t.next 0 xs .done) :
    Runs (comdatNext t) 0 (comdatsOf t xs) .done := by
  have : ∀ (n i : Nat) (xs : List (Nat × Symbol)), xs.length = n → Runs t.next i xs .done → Runs (comdatNext t) i (comdatsOf t xs) .done := by
    intro n
    induction n using Nat.strongRecOn with
    | _ n ih =>
      intro i xs hn hr
      have hlen := runs_length t i xs hr
      have hf : xs.length < t.symbols.length + 1 := by
        rcases hlen with rfl | hlen
        · simp
        · omega
      rcases comdat_loop t xs (t.symbols.length + 1) i hr hf with ⟨j, g1, g2⟩ | ⟨c, cs, j, post, g1, g2, g3, g4, g5⟩
      · rw [g2]; exact .done g1
      · rw [g2]
        refine .item (s' := j) g1 ?_
        rw [← g4]
        exact ih post.length (by omega) j post rfl g3
  exact this _ 0 xs rfl h

private theorem section_loop (t : Coff.SymTab) (n : Nat) (xs : List (Nat × Symbol)) : ∀ (fuel i : Nat), Runs t.next i xs .done → xs.length < fuel →
    (∃ i', comdatSectionLoop t n fuel i = (.ok none, i') ∧ comdatSectionsOf t n xs = []) ∨
    ∃ c cs i' post, comdatSectionLoop t n fuel i = (.ok (some c), i') ∧ comdatSectionsOf t n xs = c :: cs ∧ Runs t.next i' post .done ∧
      comdatSectionsOf t n post = cs ∧ post.length < xs.length := by
  induction xs with
  | nil =>
    intro fuel i hr hf
    obtain ⟨fuel, rfl⟩ : ∃ k, fuel = k + 1 := ⟨fuel - 1, by omega⟩
    left
    cases hr with
    | done h1 => unfold comdatSectionLoop; rw [h1]; exact ⟨_, rfl, rfl⟩
  | cons x xs ih =>
    intro fuel i hr hf
    obtain ⟨fuel, rfl⟩ : ∃ k, fuel = k + 1 := ⟨fuel - 1, by omega⟩
    cases hr with
    | @item _ i' _ _ _ h1 h2 =>
      obtain ⟨e1, e2, e3, e4⟩ := next_item h1
      obtain ⟨xi, xsym⟩ := x
      simp only at e1 e2 e3
      subst e1
      unfold comdatSectionLoop
      rw [comdatSectionsOf, h1]
      simp only
      have hskip : (∃ j, comdatSectionLoop t n fuel i' = (.ok none, j) ∧ comdatSectionsOf t n xs = []) ∨
          ∃ c cs j post, comdatSectionLoop t n fuel i' = (.ok (some c), j) ∧ comdatSectionsOf t n xs = c :: cs ∧
            Runs t.next j post .done ∧ comdatSectionsOf t n post = cs ∧ post.length < ((xi, xsym) :: xs).length := by
        rcases ih fuel i' h2 (by simp at hf; omega) with ⟨j, g1, g2⟩ | ⟨c, cs, j, post, g1, g2, g3, g4, g5⟩
        · exact Or.inl ⟨j, g1, g2⟩
        · exact Or.inr ⟨c, cs, j, post, g1, g2, g3, g4, by simp; omega⟩
      unfold Symbol.hasAuxSection Symbol.section
      by_cases hc : 0 < xsym.auxCount ∧ xsym.storageClass = 3 ∧ xsym.typ = 0
      · obtain ⟨c1, c2, c3⟩ := hc
        simp only [c1, c2, c3, decide_true, beq_self_eq_true, Bool.and_self, Bool.not_true, Bool.false_eq_true, if_false, true_and]
        by_cases hn : 0 < xsym.sectionNumber
        · simp only [if_pos hn]
          cases ha : t.auxSection xi with
          | err => left; exact ⟨_, rfl, rfl⟩
          | panic => exact absurd ha (auxSection_no_panic t xi)
          | ok aux =>
            simp only
            have hyes : ∃ c cs j post, ((Res.ok (some xsym.sectionNumber.toNat), i') : Res (Option Nat) × Nat) = (.ok (some c), j) ∧
                xsym.sectionNumber.toNat :: comdatSectionsOf t n xs = c :: cs ∧ Runs t.next j post .done ∧
                comdatSectionsOf t n post = cs ∧ post.length < ((xi, xsym) :: xs).length :=
              ⟨_, _, i', xs, rfl, rfl, h2, rfl, by simp⟩
            by_cases h5 : aux.selection = 5
            · have hin : InGroup n xsym aux ↔ aux.number = n := by unfold InGroup; rw [if_pos h5]
              rw [if_pos h5]
              by_cases hk : aux.number = n
              · rw [if_pos hk, if_pos (hin.2 hk)]
                right; exact hyes
              · rw [if_neg hk, if_neg (fun h => hk (hin.1 h))]
                exact hskip
            · have hin : InGroup n xsym aux ↔ aux.selection ≠ 0 ∧ xsym.sectionNumber = n := by unfold InGroup; rw [if_neg h5]
              rw [if_neg h5]
              by_cases h0 : aux.selection = 0
              · rw [if_neg (by simpa using h0), if_neg (fun h => (hin.1 h).1 h0)]
                exact hskip
              · rw [if_pos h0]
                by_cases hk : xsym.sectionNumber.toNat = n
                · rw [if_pos hk, if_pos (hin.2 ⟨h0, by omega⟩)]
                  right; exact hyes
                · rw [if_neg hk, if_neg (fun h => hk (by have := (hin.1 h).2; omega))]
                  exact hskip
        · simp only [if_neg hn]
          exact hskip
      · rw [if_pos, if_neg]
        · exact hskip
        · intro h; exact hc ⟨h.1, h.2.1, h.2.2.1⟩
        · simp only [Bool.not_eq_true', Bool.and_eq_false_iff, decide_eq_false_iff_not, beq_eq_false_iff_ne]
          by_cases c1 : 0 < xsym.auxCount
          · by_cases c2 : xsym.storageClass = 3
            · right; intro c3; exact hc ⟨c1, c2, c3⟩
            · left; right; exact c2
          · left; left; exact c1

/-- C55: the sections of a COMDAT group are its own section and every section that is associated with it. -/
theorem C55_comdat_sections (t : Coff.SymTab) (n : Nat) (xs : List (Nat × Symbol)) (h : Runs t.next 0 xs .done) :
    Runs (comdatSectionNext t n) 0 (comdatSectionsOf t n xs) .done := by
  have : ∀ (m i : Nat) (xs : List (Nat × Symbol)), xs.length = m → Runs t.next i xs .done →
      Runs (comdatSectionNext t n) i (comdatSectionsOf t n xs) .done := by
    intro m
    induction m using Nat.strongRecOn with
    | _ m ih =>
      intro i xs hn hr
      have hlen := runs_length t i xs hr
      have hf : xs.length < t.symbols.length + 1 := by
        rcases hlen with rfl | hlen
        · simp
        · omega
      rcases section_loop t n xs (t.symbols.length + 1) i hr hf with ⟨j, g1, g2⟩ | ⟨c, cs, j, post, g1, g2, g3, g4, g5⟩
      · rw [g2]; exact .done g1
      · rw [g2]
        refine .item (s' := j) g1 ?_
        rw [← g4]
        exact ih post.length (by omega) j post rfl g3
  exact this _ 0 xs rfl h

/-- Three section symbols: a group with a COMDAT symbol, a section associated with it, and a section that is in no group. -/
example :
    let n := fun s : String => s.toUTF8.toList ++ List.replicate (8 - s.toUTF8.toList.length) (0 : UInt8)
    let es : List Entry := [⟨n ".text$a", 0, 1, 0, 3, .section ⟨16, 0, 0, 7, 0, 2⟩⟩, ⟨n ".pdata", 0, 2, 0, 3, .section ⟨16, 0, 0, 7, 1, 5⟩⟩,
      ⟨n ".data", 0, 3, 0, 3, .section ⟨16, 0, 0, 7, 0, 0⟩⟩, ⟨n "other", 0, 3, 0, 2, .none⟩, ⟨n "fa", 0, 1, 0x20, 2, .none⟩]
    let t : Res Coff.SymTab := (entriesBytes StrTab.new es).bind fun bs =>
      SymTab.parse ⟨false, 0x8664, 3, 2, 8⟩ ([7, 7] ++ bs ++ strtabBytes 4 [])
    let t' : Coff.SymTab := match t with | .ok x => x | _ => ⟨true, [], none⟩
    let xs := (indexed 0 es).map fun p => (p.1, p.2.symbol)
    (t = .ok t' ∧
      (xs.map fun p => t'.symbol p.1) = xs.map (fun p => .ok p.2) ∧ t'.next 8 = (.ok none, 8) ∧
      comdatsOf t' xs = [⟨7, ⟨n "fa", 0, 1, 0x20, 2, 0⟩, 1, 2⟩] ∧ comdatSectionsOf t' 1 xs = [1, 2] ∧ comdatSectionsOf t' 3 xs = [] ∧
      comdatNext t' 0 = (.ok (some ⟨7, ⟨n "fa", 0, 1, 0x20, 2, 0⟩, 1, 2⟩), 2) ∧ comdatSectionNext t' 1 2 = (.ok (some 2), 4)) := by
  decide +kernel

/-! ## C56: section alignment -/

/-- C56: every alignment that the writer accepts is a power of two up to 8192, and is read back from the flags whatever the other
flags are; the other flags are kept. -/
theorem C56_alignment (align flags a : Nat) (hf : flags < 2 ^ 32) (h : alignFlags align = some a) :
    coffAlignment (withAlign flags a) = align ∧ (∃ k ≤ 13, align = 2 ^ k) ∧
    (∀ i, i < 20 ∨ 24 ≤ i → (withAlign flags a).testBit i = flags.testBit i) := by
  have hmask : ∀ i, Nat.testBit 0xf00000 i = (decide (20 ≤ i) && decide (i < 24)) := by
    intro i
    by_cases h : i < 24
    · have : ∀ j : Fin 24, Nat.testBit 0xf00000 j.val = (decide (20 ≤ j.val) && decide (j.val < 24)) := by decide +kernel
      exact this ⟨i, h⟩
    · rw [Nat.testBit_lt_two_pow (Nat.lt_of_lt_of_le (show 0xf00000 < 2 ^ 24 by decide) (Nat.pow_le_pow_right (by decide) (by omega)))]
      simp [h]
  have hinv : ∀ i, Nat.testBit (0xffffffff - 0xf00000) i = (decide (i < 32) && !(decide (20 ≤ i) && decide (i < 24))) := by
    intro i
    by_cases h : i < 32
    · have : ∀ j : Fin 32, Nat.testBit (0xffffffff - 0xf00000) j.val = (decide (j.val < 32) && !(decide (20 ≤ j.val) && decide (j.val < 24))) := by
        decide +kernel
      exact this ⟨i, h⟩
    · rw [Nat.testBit_lt_two_pow (Nat.lt_of_lt_of_le (show 0xffffffff - 0xf00000 < 2 ^ 32 by decide) (Nat.pow_le_pow_right (by decide) (by omega)))]
      simp [h]
  have hbits : ∀ i, (withAlign flags a).testBit i = if 20 ≤ i ∧ i < 24 then a.testBit i else flags.testBit i := by
    intro i
    unfold withAlign
    rw [Nat.testBit_or, Nat.testBit_and, Nat.testBit_and, hmask, hinv]
    by_cases h : 20 ≤ i ∧ i < 24
    · rw [if_pos h]; simp [h.1, h.2]
    · rw [if_neg h]
      have hd : (decide (20 ≤ i) && decide (i < 24)) = false := by
        rw [Bool.and_eq_false_iff]; simp only [decide_eq_false_iff_not]; omega
      rw [hd]
      by_cases h32 : i < 32
      · simp [h32]
      · have : flags.testBit i = false := Nat.testBit_lt_two_pow (Nat.lt_of_lt_of_le hf (Nat.pow_le_pow_right (by decide) (by omega)))
        simp [this]
  have hand : withAlign flags a &&& 0xf00000 = a &&& 0xf00000 := by
    apply Nat.eq_of_testBit_eq
    intro i
    rw [Nat.testBit_and, Nat.testBit_and, hbits, hmask]
    by_cases h : 20 ≤ i ∧ i < 24
    · rw [if_pos h]
    · have hd : (decide (20 ≤ i) && decide (i < 24)) = false := by
        rw [Bool.and_eq_false_iff]; simp only [decide_eq_false_iff_not]; omega
      rw [hd]; simp
  have hcases : ∃ k ≤ 13, align = 2 ^ k ∧ a = (k + 1) * 0x100000 := by
    unfold alignFlags at h
    by_cases h0 : align = 1
    · rw [if_pos h0] at h; exact ⟨0, by decide, h0, by simpa using h.symm⟩
    rw [if_neg h0] at h
    by_cases h1 : align = 2
    · rw [if_pos h1] at h; exact ⟨1, by decide, h1, by simpa using h.symm⟩
    rw [if_neg h1] at h
    by_cases h2 : align = 4
    · rw [if_pos h2] at h; exact ⟨2, by decide, h2, by simpa using h.symm⟩
    rw [if_neg h2] at h
    by_cases h3 : align = 8
    · rw [if_pos h3] at h; exact ⟨3, by decide, h3, by simpa using h.symm⟩
    rw [if_neg h3] at h
    by_cases h4 : align = 16
    · rw [if_pos h4] at h; exact ⟨4, by decide, h4, by simpa using h.symm⟩
    rw [if_neg h4] at h
    by_cases h5 : align = 32
    · rw [if_pos h5] at h; exact ⟨5, by decide, h5, by simpa using h.symm⟩
    rw [if_neg h5] at h
    by_cases h6 : align = 64
    · rw [if_pos h6] at h; exact ⟨6, by decide, h6, by simpa using h.symm⟩
    rw [if_neg h6] at h
    by_cases h7 : align = 128
    · rw [if_pos h7] at h; exact ⟨7, by decide, h7, by simpa using h.symm⟩
    rw [if_neg h7] at h
    by_cases h8 : align = 256
    · rw [if_pos h8] at h; exact ⟨8, by decide, h8, by simpa using h.symm⟩
    rw [if_neg h8] at h
    by_cases h9 : align = 512
    · rw [if_pos h9] at h; exact ⟨9, by decide, h9, by simpa using h.symm⟩
    rw [if_neg h9] at h
    by_cases h10 : align = 1024
    · rw [if_pos h10] at h; exact ⟨10, by decide, h10, by simpa using h.symm⟩
    rw [if_neg h10] at h
    by_cases h11 : align = 2048
    · rw [if_pos h11] at h; exact ⟨11, by decide, h11, by simpa using h.symm⟩
    rw [if_neg h11] at h
    by_cases h12 : align = 4096
    · rw [if_pos h12] at h; exact ⟨12, by decide, h12, by simpa using h.symm⟩
    rw [if_neg h12] at h
    by_cases h13 : align = 8192
    · rw [if_pos h13] at h; exact ⟨13, by decide, h13, by simpa using h.symm⟩
    rw [if_neg h13] at h
    simp at h
  obtain ⟨k, hk, e1, e2⟩ := hcases
  refine ⟨?_, ⟨k, hk, e1⟩, ?_⟩
  · unfold coffAlignment
    rw [hand, e1, e2]
    have : ∀ k : Fin 14, coffAlignment ((k.val + 1) * 0x100000) = 2 ^ k.val := by decide +kernel
    exact this ⟨k, by omega⟩
  · intro i hi
    rw [hbits, if_neg (by omega)]

/-- All powers of two up to 8192 are accepted. -/
theorem C56_accepted (k : Nat) (hk : k ≤ 13) : alignFlags (2 ^ k) = some ((k + 1) * 0x100000) := by
  have : ∀ k : Fin 14, alignFlags (2 ^ k.val) = some ((k.val + 1) * 0x100000) := by decide +kernel
  exact this ⟨k, by omega⟩

example : alignFlags 64 = some 0x700000 ∧ coffAlignment (withAlign 0x60500020 0x700000) = 64 := by decide +kernel

/-- C54: a section lookup by name returns the first section of that name, with its 1-based index. -/
theorem C54_section_by_name (ss : List Coff.Section) (strings : StrTable) (data name : List UInt8) :
    (∀ i s, sectionByName ss strings data name = some (i, s) → 1 ≤ i ∧ sectionAt ss i = .ok s ∧
      readSectionName strings data s.name = .ok name ∧ ∀ (j : Nat) s', ss[j]? = some s' → j + 1 < i → readSectionName strings data s'.name ≠ .ok name) ∧
    (sectionByName ss strings data name = none → ∀ s ∈ ss, readSectionName strings data s.name ≠ .ok name) := by
  have key : ∀ (ss : List Coff.Section) (k : Nat),
      (∀ p, (ss.zipIdx k).find? (fun p => readSectionName strings data p.1.name == .ok name) = some p → k ≤ p.2 ∧ ss[p.2 - k]? = some p.1 ∧
        readSectionName strings data p.1.name = .ok name ∧
        ∀ (j : Nat) s', ss[j]? = some s' → j + k < p.2 → readSectionName strings data s'.name ≠ .ok name) ∧
      ((ss.zipIdx k).find? (fun p => readSectionName strings data p.1.name == .ok name) = none →
        ∀ s ∈ ss, readSectionName strings data s.name ≠ .ok name) := by
    intro ss
    induction ss with
    | nil => intro k; simp
    | cons s ss ih =>
      intro k
      obtain ⟨h1, h2⟩ := ih (k + 1)
      rw [List.zipIdx_cons]
      by_cases hs : readSectionName strings data s.name = .ok name
      · rw [List.find?_cons_of_pos (by simpa using hs)]
        refine ⟨?_, by simp⟩
        rintro p hp
        simp only [Option.some.injEq] at hp
        subst hp
        refine ⟨Nat.le_refl _, by simp, hs, ?_⟩
        intro j s' _ hj
        simp only at hj; omega
      · rw [List.find?_cons_of_neg (by simpa using hs)]
        constructor
        · intro p hp
          obtain ⟨g1, g2, g3, g4⟩ := h1 p hp
          refine ⟨by omega, ?_, g3, ?_⟩
          · rw [show p.2 - k = (p.2 - (k + 1)) + 1 by omega, List.getElem?_cons_succ]; exact g2
          · intro j s' hj hlt
            cases j with
            | zero => simp at hj; subst hj; exact hs
            | succ j => exact g4 j s' (by simpa using hj) (by omega)
        · intro hp x hx
          rw [List.mem_cons] at hx
          rcases hx with rfl | hx
          · exact hs
          · exact h2 hp x hx
  obtain ⟨h1, h2⟩ := key ss 1
  unfold sectionByName
  constructor
  · intro i s h
    rw [Option.map_eq_some_iff] at h
    obtain ⟨p, hp, he⟩ := h
    simp only [Prod.mk.injEq] at he
    obtain ⟨rfl, rfl⟩ := he
    obtain ⟨g1, g2, g3, g4⟩ := h1 p hp
    refine ⟨g1, ?_, g3, fun j s' hj hlt => g4 j s' hj hlt⟩
    unfold sectionAt
    rw [if_neg (by omega), g2]; rfl
  · intro h
    rw [Option.map_eq_none_iff] at h
    exact h2 h

/-- C54: the maximum file offset is the largest end of the raw data of a section. -/
theorem C54_max_file_offset (ss : List Coff.Section) :
    (∀ s ∈ ss, s.pointerToRawData + s.sizeOfRawData ≤ maxFileOffset ss) ∧
    (maxFileOffset ss = 0 ∨ ∃ s ∈ ss, maxFileOffset ss = s.pointerToRawData + s.sizeOfRawData) := by
  have key : ∀ (ss : List Coff.Section) (m : Nat),
      let r := ss.foldl (fun max s => if max < s.pointerToRawData + s.sizeOfRawData then s.pointerToRawData + s.sizeOfRawData else max) m
      m ≤ r ∧ (∀ s ∈ ss, s.pointerToRawData + s.sizeOfRawData ≤ r) ∧ (r = m ∨ ∃ s ∈ ss, r = s.pointerToRawData + s.sizeOfRawData) := by
    intro ss
    induction ss with
    | nil => intro m; simp
    | cons s ss ih =>
      intro m
      simp only [List.foldl_cons]
      obtain ⟨h1, h2, h3⟩ := ih (if m < s.pointerToRawData + s.sizeOfRawData then s.pointerToRawData + s.sizeOfRawData else m)
      have hmx : m ≤ (if m < s.pointerToRawData + s.sizeOfRawData then s.pointerToRawData + s.sizeOfRawData else m) ∧
          s.pointerToRawData + s.sizeOfRawData ≤ (if m < s.pointerToRawData + s.sizeOfRawData then s.pointerToRawData + s.sizeOfRawData else m) := by
        split <;> omega
      refine ⟨Nat.le_trans hmx.1 h1, ?_, ?_⟩
      · intro x hx
        rw [List.mem_cons] at hx
        rcases hx with rfl | hx
        · exact Nat.le_trans hmx.2 h1
        · exact h2 x hx
      · rcases h3 with h3 | ⟨x, hx, h3⟩
        · by_cases hlt : m < s.pointerToRawData + s.sizeOfRawData
          · rw [if_pos hlt] at h3 ⊢
            exact Or.inr ⟨s, by simp, h3⟩
          · rw [if_neg hlt] at h3 ⊢
            exact Or.inl h3
        · exact Or.inr ⟨x, by simp [hx], h3⟩
  exact (key ss 0).2

end Obj.Props
