import Verif.Proof.Xcoff
import Verif.Proof.MachoReloc

/-! # C73: reading XCOFF files -/

namespace Obj.Props
open Obj Obj.Spec Obj.Spec.XcoffS Obj.Xcoff

private theorem hdrSize_eq (is64 : Bool) : hdrSize is64 = if is64 then 24 else 20 := rfl

private theorem header_iff (is64 : Bool) (data : List UInt8) (h : Hdr) : parseHeader is64 data = .ok h ↔ HeaderAt is64 data h := by
  have hpos : 0 < hdrSize is64 := by cases is64 <;> decide
  unfold parseHeader
  rw [readRef_readBytesAt_pos hpos, Nat.zero_add]
  have hf : ∀ off w, off + w ≤ hdrSize is64 → field .big (slice data 0 (hdrSize is64)) off w = field .big data off w := by
    intro off w h
    rw [field_of_slice _ _ _ _ _ h, Nat.zero_add]
  have h20 : 20 ≤ hdrSize is64 := by cases is64 <;> decide
  by_cases hl : hdrSize is64 ≤ data.length
  · rw [if_pos hl]
    simp only [Res.ok_bind]
    rw [Hdr.decode_at]
    simp only
    have e1 := hf 0 2 (by omega)
    have e2 := hf 2 2 (by omega)
    have e3 := hf 4 4 (by omega)
    have e4 := hf 8 (if is64 then 8 else 4) (by cases is64 <;> decide)
    have e5 := hf (if is64 then 20 else 12) 4 (by cases is64 <;> decide)
    have e6 := hf 16 2 (by omega)
    have e7 := hf 18 2 (by omega)
    rw [e1, e2, e3, e4, e5, e6, e7]
    constructor
    · intro hh
      split at hh
      · rename_i hm
        simp only [Res.ok.injEq] at hh
        subst hh
        exact ⟨hl, hm, rfl, rfl, rfl, rfl, rfl, rfl⟩
      · cases hh
    · intro hh
      rw [if_pos (by exact hh.magic)]
      obtain ⟨h1, h2, h3, h4, h5, h6, h7, h8⟩ := hh
      cases h
      simp only at h3 h4 h5 h6 h7 h8
      simp only [h3, h4, h5, h6, h7, h8]
  · rw [if_neg hl]
    constructor
    · intro hh; cases hh
    · intro hh; exact absurd hh.inside hl

private theorem parseHeader_no_panic (is64 : Bool) (data : List UInt8) : parseHeader is64 data ≠ .panic := by
  refine Res.bind_no_panic (readRef_readBytesAt_no_panic _ _ _) fun a _ => ?_
  simp only
  split <;> simp

private theorem auxHeader_off {is64 : Bool} {h : Hdr} {data : List UInt8} {r : Option Align × Nat} (he : auxHeader is64 h data = .ok r) :
    r.2 = sectionsAt is64 h := by
  unfold auxHeader at he
  simp only at he
  split at he
  · simp only [Res.ok.injEq] at he
    subst he; rfl
  · split at he
    · simp only [Res.ok.injEq] at he
      subst he; rfl
    · rename_i ho
      cases hr : ReadRef.readBytesAt data (hdrSize is64) (auxHeaderSize is64) with
      | ok b =>
        rw [hr] at he
        simp only [Res.ok_bind, Res.ok.injEq] at he
        subst he
        show hdrSize is64 + auxHeaderSize is64 = _
        unfold sectionsAt
        rw [← hdrSize_eq]; omega
      | err => rw [hr] at he; cases he
      | panic => rw [hr] at he; cases he

private theorem auxHeader_no_panic (is64 : Bool) (h : Hdr) (data : List UInt8) : auxHeader is64 h data ≠ .panic := by
  unfold auxHeader
  simp only
  split
  · simp
  · split
    · simp
    · exact Res.bind_no_panic (readRef_readBytesAt_no_panic _ _ _) fun a _ => by simp

private theorem sectSize_eq (is64 : Bool) : sectSize is64 = if is64 then 72 else 40 := rfl

private theorem parseSections_no_panic (is64 : Bool) (h : Hdr) (data : List UInt8) (o : Nat) : parseSections is64 h data o ≠ .panic := by
  unfold parseSections
  split
  · simp
  · exact Res.bind_no_panic (readSliceAt_no_panic _ _ _ _) fun a _ => by simp

private theorem slice_mul_lt {n w : Nat} (hn : n < 2 ^ 32) (hw : w ≤ 72) : n * w < U64 := by
  have h1 : n * w ≤ n * 72 := Nat.mul_le_mul_left _ hw
  have h2 : (2 : Nat) ^ 32 * 72 < U64 := by decide
  omega

private theorem parseSections_iff (is64 : Bool) (h : Hdr) (hn : h.nscns < 2 ^ 16) (data : List UInt8) (o : Nat) (ss : List Sect) :
    parseSections is64 h data o = .ok ss ↔ (h.nscns = 0 ∨ o + sectSize is64 * h.nscns ≤ data.length) ∧
      ss = (List.range h.nscns).map fun i => Sect.decode is64 (slice data (o + sectSize is64 * i) (sectSize is64)) := by
  have hs : sectSize is64 ≤ 72 := by cases is64 <;> decide
  have hpos : 0 < sectSize is64 := by cases is64 <;> decide
  unfold parseSections
  by_cases h0 : h.nscns = 0
  · rw [if_pos h0, h0]
    simp [eq_comm]
  · rw [if_neg h0]
    have hiff := Pe.readSliceAt_iff data o (sectSize is64) h.nscns (slice_mul_lt (by omega) hs)
    have hz : h.nscns * sectSize is64 = 0 ↔ False := by
      simp only [iff_false]
      exact Nat.mul_ne_zero h0 (by omega)
    cases hr : Elf.readSliceAt data o (sectSize is64) h.nscns with
    | ok imgs =>
      obtain ⟨h1, h2⟩ := (hiff imgs).1 hr
      rw [hz] at h1
      simp only [Res.ok_bind, Res.ok.injEq, h0]
      rw [h2, List.map_map]
      constructor
      · intro h; exact ⟨h1, h.symm⟩
      · intro h; exact h.2.symm
    | err =>
      constructor
      · intro h; cases h
      · rintro ⟨h1, -⟩
        have := (hiff _).2 ⟨.inr (h1.resolve_left h0), rfl⟩
        rw [hr] at this; cases this
    | panic => exact absurd hr (readSliceAt_no_panic _ _ _ _)

private theorem parseSymbols_no_panic (is64 : Bool) (h : Hdr) (data : List UInt8) : parseSymbols is64 h data ≠ .panic := by
  unfold parseSymbols
  split
  · simp
  · have h1 := readSliceAt_no_panic data h.symptr 18 h.nsyms
    unfold Elf.readSliceAt at h1
    simp only
    split
    · refine Res.bind_no_panic (readRef_readBytesAt_no_panic _ _ _) fun a _ => ?_
      split <;> simp
    · simp
    · simp_all

private theorem parseSymbols_ok {is64 : Bool} {h : Hdr} (hp : h.symptr < 2 ^ 64) {data : List UInt8} (hlen : data.length < 2 ^ 64)
    {t : SymTab} (he : parseSymbols is64 h data = .ok t) : TableAt is64 data h t := by
  unfold parseSymbols at he
  by_cases h0 : h.symptr = 0
  · rw [if_pos h0] at he
    simp only [Res.ok.injEq] at he
    subst he
    exact ⟨rfl, fun _ => ⟨rfl, rfl⟩, fun h => absurd h0 h, by simp, fun h => absurd h0 h⟩
  · rw [if_neg h0] at he
    simp only at he
    match hr : ReadRef.readSlice data h.symptr 18 h.nsyms with
    | (.err, o') => rw [hr] at he; cases he
    | (.panic, o') => rw [hr] at he; cases he
    | (.ok imgs, o') =>
      rw [hr] at he
      simp only at he
      obtain ⟨e, hb, hlt, ho⟩ := readSlice_ok hr
      have hU : U64 = 2 ^ 64 := by decide
      have ho' : o' = h.symptr + 18 * h.nsyms := by
        rw [ho, Nat.mul_comm]
        rcases hb with hb | hb
        · apply Nat.mod_eq_of_lt; omega
        · apply Nat.mod_eq_of_lt; omega
      rw [readRef_readBytesAt_pos (by decide)] at he
      split at he
      · rename_i h4
        simp only [Res.ok_bind] at he
        split at he
        · cases he
        · simp only [Res.ok.injEq] at he
          subst he
          refine ⟨rfl, fun h => absurd h h0, fun _ => ?_, ?_, fun _ => ⟨by omega, ?_⟩⟩
          · show imgs.length = _
            rw [e, Coff.length_chunks]
          · intro i r hi
            have hi' : imgs[i]? = some r := hi
            rw [e] at hi'
            have hil : i < h.nsyms := by
              have := (List.getElem?_eq_some_iff.1 hi').1
              rwa [Coff.length_chunks] at this
            rw [Coff.chunks_get _ _ _ _ hil] at hi'
            simp only [Option.some.injEq] at hi'
            have hm : 18 * (i + 1) ≤ 18 * h.nsyms := Nat.mul_le_mul_left _ hil
            rw [Nat.mul_succ] at hm
            refine ⟨?_, by omega⟩
            rw [← hi']
            exact slice_slice _ _ _ _ _ (by omega)
          · show some (o', o' + rd .big (slice data o' 4)) = _
            rw [ho']
            rfl
      · cases he

private theorem parseSymbols_accepts (is64 : Bool) (h : Hdr) (hn : h.nsyms < 2 ^ 32) (data : List UInt8)
    (hlen : data.length < 2 ^ 63) (hs : h.symptr ≠ 0 → h.symptr + 18 * h.nsyms + 4 ≤ data.length) :
    ∃ t, parseSymbols is64 h data = .ok t := by
  unfold parseSymbols
  by_cases h0 : h.symptr = 0
  · rw [if_pos h0]; exact ⟨_, rfl⟩
  · rw [if_neg h0]
    have hs := hs h0
    have hU : U64 = 2 ^ 64 := by decide
    have e : ReadRef.readSlice data h.symptr 18 h.nsyms =
        (.ok (Bytes.chunks 18 h.nsyms (slice data h.symptr (h.nsyms * 18))), h.symptr + 18 * h.nsyms) := by
      unfold ReadRef.readSlice ReadRef.readBytes
      rw [readRef_readBytesAt_eq, if_neg (by omega), if_pos (.inr (by omega))]
      simp only
      rw [Nat.mod_eq_of_lt (by omega), Nat.mul_comm]
    rw [e]
    simp only
    rw [readRef_readBytesAt_pos (by decide), if_pos (by omega)]
    simp only [Res.ok_bind]
    have hlt : rd .big (slice data (h.symptr + 18 * h.nsyms) 4) < 256 ^ 4 := field_lt .big data _ 4
    rw [if_neg (by have : (256 : Nat) ^ 4 = 2 ^ 32 := by decide
                   omega)]
    exact ⟨_, rfl⟩

private theorem header_bounds {is64 : Bool} {data : List UInt8} {h : Hdr} (hh : HeaderAt is64 data h) :
    h.nscns < 2 ^ 16 ∧ h.symptr < 2 ^ 64 ∧ h.nsyms < 2 ^ 32 := by
  refine ⟨?_, ?_, ?_⟩
  · rw [hh.nscns]; exact field_lt .big data 2 2
  · rw [hh.symptr]
    refine Nat.lt_of_lt_of_le (field_lt .big data 8 _) ?_
    cases is64 <;> decide
  · rw [hh.nsyms]; exact field_lt .big data _ 4

/-- C73: parsing arbitrary bytes as an XCOFF file never panics; the header, the sections and the symbol table of a file that is
accepted are those at the places that the format gives, all of them inside of the file. -/
theorem C73_parse (is64 : Bool) (data : List UInt8) (hlen : data.length < 2 ^ 64) :
    File.parse is64 data ≠ .panic ∧ ∀ f, File.parse is64 data = .ok f →
      f.is64 = is64 ∧ HeaderAt is64 data f.header ∧ f.sections.length = f.header.nscns ∧
      (∀ (i : Nat) (s : Sect), f.sections[i]? = some s → SectAt is64 data (sectionsAt is64 f.header + (if is64 then 72 else 40) * i) s) ∧
      TableAt is64 data f.header f.symbols := by
  constructor
  · refine Res.bind_no_panic (parseHeader_no_panic _ _) fun h _ => ?_
    refine Res.bind_no_panic (auxHeader_no_panic _ _ _) fun r _ => ?_
    refine Res.bind_no_panic (parseSections_no_panic _ _ _ _) fun ss _ => ?_
    exact Res.bind_no_panic (parseSymbols_no_panic _ _ _) fun y _ => by simp
  · intro f hf
    unfold File.parse at hf
    simp only [Res.bind_eq, Res.bind_eq_ok] at hf
    obtain ⟨h, h1, ⟨a, off⟩, h2, ss, h3, y, h4, h5⟩ := hf
    simp only [Res.ok.injEq] at h5
    subst h5
    have hh := (header_iff _ _ _).1 h1
    obtain ⟨hb1, hb2, -⟩ := header_bounds hh
    have hoff := auxHeader_off h2
    simp only at hoff h3
    subst hoff
    obtain ⟨g1, g2⟩ := (parseSections_iff is64 h hb1 data _ ss).1 h3
    refine ⟨rfl, hh, by rw [g2]; simp, ?_, parseSymbols_ok hb2 hlen h4⟩
    intro i s hi
    have hi' : ss[i]? = some s := hi
    rw [g2, List.getElem?_map] at hi'
    have hil : i < h.nscns := by
      rcases Nat.lt_or_ge i h.nscns with h | h
      · exact h
      · rw [List.getElem?_eq_none (by simpa using h)] at hi'; cases hi'
    rw [List.getElem?_range hil] at hi'
    simp only [Option.map_some, Option.some.injEq] at hi'
    subst hi'
    apply Sect.decode_at
    have hm : sectSize is64 * (i + 1) ≤ sectSize is64 * h.nscns := Nat.mul_le_mul_left _ hil
    rw [Nat.mul_succ] at hm
    have := g1.resolve_left (by omega)
    show sectionsAt is64 h + sectSize is64 * i + sectSize is64 ≤ _
    omega

/-- C73: a file is accepted if its header has the magic number and the tables that the header gives are inside of the file (the
auxiliary header if the file is an executable and the header has the full size). -/
theorem C73_accepts (is64 : Bool) (data : List UInt8) (hlen : data.length < 2 ^ 63) (h : Hdr) (hh : HeaderAt is64 data h)
    (haux : h.flags.testBit 1 = true → h.opthdr = (if is64 then 120 else 72) → sectionsAt is64 h ≤ data.length)
    (hsec : h.nscns ≠ 0 → sectionsAt is64 h + (if is64 then 72 else 40) * h.nscns ≤ data.length)
    (hsym : h.symptr ≠ 0 → h.symptr + 18 * h.nsyms + 4 ≤ data.length) : ∃ f, File.parse is64 data = .ok f ∧ f.header = h := by
  obtain ⟨hb1, hb2, hb3⟩ := header_bounds hh
  have e1 := (header_iff is64 data h).2 hh
  obtain ⟨a, e2⟩ : ∃ a, auxHeader is64 h data = .ok a := by
    unfold auxHeader
    simp only
    split
    · exact ⟨_, rfl⟩
    · rename_i hx
      split
      · exact ⟨_, rfl⟩
      · rename_i ho
        have : auxHeaderSize is64 = h.opthdr := by omega
        replace haux := haux (by
          have h2 := and_two_pow_ne h.flags 1
          simp only [Nat.reducePow] at h2
          rw [h2.symm]; simp only [ne_eq, Classical.not_not] at hx; rw [hx]; decide) this.symm
        have hs : sectionsAt is64 h = hdrSize is64 + h.opthdr := rfl
        rw [readRef_readBytesAt_pos (by cases is64 <;> decide), if_pos (by omega)]
        exact ⟨_, rfl⟩
  have ho := auxHeader_off e2
  obtain ⟨t, e4⟩ := parseSymbols_accepts is64 h hb3 data hlen hsym
  refine ⟨⟨is64, h, a.1, (List.range h.nscns).map fun i => Sect.decode is64 (slice data (a.2 + sectSize is64 * i) (sectSize is64)), t⟩,
    ?_, rfl⟩
  · unfold File.parse
    rw [e1]
    simp only [Res.bind_eq, Res.ok_bind]
    rw [e2]
    simp only [Res.ok_bind]
    have e3 := (parseSections_iff is64 h hb1 data a.2 _).2 ⟨(by rw [ho]; exact (Classical.em (h.nscns = 0)).imp id hsec), rfl⟩
    rw [e3]
    simp only [Res.ok_bind]
    rw [e4]
    rfl

/-- C73: sections are numbered from 1; the contents of a section are the bytes of the file that its header gives. -/
theorem C73_sections (ss : List Sect) (i : Nat) (data : List UInt8) :
    section? ss i ≠ .panic ∧ (∀ s, section? ss i = .ok s ↔ 1 ≤ i ∧ ss[i - 1]? = some s) ∧
    ∀ s : Sect, s.data data ≠ .panic ∧
      ∀ b, s.data data = .ok b ↔ (s.size = 0 ∨ s.scnptr + s.size ≤ data.length) ∧ b = slice data s.scnptr s.size := by
  refine ⟨?_, ?_, ?_⟩
  · unfold section?
    split
    · simp
    · split <;> simp
  · intro s
    unfold section?
    by_cases h0 : i = 0
    · rw [if_pos h0]
      constructor
      · intro h; cases h
      · rintro ⟨h, -⟩; omega
    · rw [if_neg h0]
      cases hx : ss[i - 1]? with
      | none => simp
      | some x =>
        simp only [Res.ok.injEq, Option.some.injEq]
        constructor
        · intro h; exact ⟨by omega, h⟩
        · intro h; exact h.2
  · intro s
    refine ⟨readRef_readBytesAt_no_panic _ _ _, fun b => ?_⟩
    unfold Sect.data
    rw [readRef_readBytesAt_eq]
    split
    · rename_i h
      simp only [Res.ok.injEq]
      exact ⟨fun e => ⟨h, e.symm⟩, fun e => e.2.symm⟩
    · rename_i h
      constructor
      · intro e; cases e
      · intro e; exact absurd e.1 h

/-- C73: reading the relocations of a section never panics; they are the records that the section header gives.  (The
count 65535 of a 32-bit file, which stands for a count elsewhere, is refused.) -/
theorem C73_relocations (is64 : Bool) (s : Sect) (hn : s.nreloc < 2 ^ 32) (data : List UInt8) :
    s.relocations is64 data ≠ .panic ∧
    ((∃ rs, s.relocations is64 data = .ok rs) ↔ ¬ (is64 = false ∧ s.nreloc = 65535) ∧
      (s.nreloc = 0 ∨ s.relptr + (if is64 then 14 else 10) * s.nreloc ≤ data.length)) ∧
    ∀ rs, s.relocations is64 data = .ok rs → rs.length = s.nreloc ∧
      ∀ (k : Nat) (r : Rel), rs[k]? = some r → RelAt is64 data (s.relptr + (if is64 then 14 else 10) * k) r := by
  have hw : relSize is64 ≤ 72 := by cases is64 <;> decide
  have hpos : 0 < relSize is64 := by cases is64 <;> decide
  have hiff := Pe.readSliceAt_iff data s.relptr (relSize is64) s.nreloc (slice_mul_lt hn hw)
  have hz : s.nreloc * relSize is64 = 0 ↔ s.nreloc = 0 := by
    rw [Nat.mul_eq_zero]
    constructor
    · rintro (h | h)
      · exact h
      · omega
    · exact .inl
  rw [hz] at hiff
  refine ⟨?_, ?_, ?_⟩
  · unfold Sect.relocations
    split
    · simp
    · exact Res.bind_no_panic (readSliceAt_no_panic _ _ _ _) fun a _ => by simp
  · unfold Sect.relocations
    by_cases hc : is64 = false ∧ s.nreloc = 65535
    · rw [if_pos hc]
      constructor
      · rintro ⟨rs, h⟩; cases h
      · rintro ⟨h, -⟩; exact absurd hc h
    · rw [if_neg hc]
      constructor
      · rintro ⟨rs, h⟩
        rw [Res.bind_eq_ok] at h
        obtain ⟨imgs, h1, -⟩ := h
        exact ⟨hc, ((hiff imgs).1 h1).1⟩
      · rintro ⟨-, h⟩
        exact ⟨_, by rw [(hiff _).2 ⟨h, rfl⟩]; rfl⟩
  · intro rs h
    unfold Sect.relocations at h
    split at h
    · cases h
    · rw [Res.bind_eq_ok] at h
      obtain ⟨imgs, h1, h2⟩ := h
      obtain ⟨g1, g2⟩ := (hiff imgs).1 h1
      simp only [Res.ok.injEq] at h2
      subst h2
      refine ⟨by rw [g2]; simp, ?_⟩
      intro k r hk
      rw [g2, List.map_map, List.getElem?_map] at hk
      have hkl : k < s.nreloc := by
        rcases Nat.lt_or_ge k s.nreloc with h | h
        · exact h
        · rw [List.getElem?_eq_none (by simpa using h)] at hk; cases hk
      rw [List.getElem?_range hkl] at hk
      simp only [Option.map_some, Option.some.injEq, Function.comp] at hk
      subst hk
      apply Rel.decode_at
      have hm : relSize is64 * (k + 1) ≤ relSize is64 * s.nreloc := Nat.mul_le_mul_left _ hkl
      rw [Nat.mul_succ] at hm
      have := g1.resolve_left (by omega)
      show s.relptr + relSize is64 * k + relSize is64 ≤ _
      omega

/-- A table from a file satisfies the invariant. -/
theorem tableAt_ok {is64 : Bool} {data : List UInt8} {h : Hdr} {t : SymTab} (hn : h.nsyms < 2 ^ 32) (ht : TableAt is64 data h t) : t.Ok := by
  constructor
  · intro r hr
    obtain ⟨i, hi⟩ := List.getElem?_of_mem hr
    obtain ⟨h1, h2⟩ := ht.records i r hi
    rw [h1]
    exact length_slice_of (.inr h2)
  · by_cases h0 : h.symptr = 0
    · rw [(ht.absent h0).1]; simp
    · rw [ht.count h0]; exact hn

/-- C73: iterating over the symbols of a table ends, and yields exactly the symbols that are not deleted, in order, with
their indices; looking up such an index gives the same symbol. -/
theorem C73_iterate (is64 : Bool) (data : List UInt8) (h : Hdr) (hn : h.nsyms < 2 ^ 32) (t : SymTab) (ht : TableAt is64 data h t) :
    ∃ xs, Runs t.next 0 xs .done ∧ Entries t.records 0 (xs.map (·.1)) ∧ ∀ p ∈ xs, t.symbol p.1 = .ok p.2 := by
  have hok := tableAt_ok hn ht
  have key : ∀ m i, t.records.length - i ≤ m → ∃ xs, Runs t.next i xs .done ∧ Entries t.records i (xs.map (·.1)) ∧
      ∀ p ∈ xs, t.symbol p.1 = .ok p.2 := by
    intro m
    induction m with
    | zero =>
      intro i hi
      rcases nextFuel_spec hok (t.records.length - i + 1) i (by omega) with ⟨j, g1, g2⟩ | ⟨j, s, k, g1, g2, g3, g4, g5, g6⟩
      · exact ⟨[], .done (s' := j) (by unfold SymTab.next; simp only [g1]), g2, by simp⟩
      · omega
    | succ m ih =>
      intro i hi
      rcases nextFuel_spec hok (t.records.length - i + 1) i (by omega) with ⟨j, g1, g2⟩ | ⟨j, s, k, g1, g2, g3, g4, g5, g6⟩
      · exact ⟨[], .done (s' := j) (by unfold SymTab.next; simp only [g1]), g2, by simp⟩
      · obtain ⟨xs, x1, x2, x3⟩ := ih k (by omega)
        refine ⟨(j, s) :: xs, .item (s' := k) (by unfold SymTab.next; simp only [g1]) x1, g6 _ x2, ?_⟩
        intro p hp
        rcases List.mem_cons.1 hp with rfl | hp
        · exact g2
        · exact x3 p hp
  exact key _ 0 (Nat.le_refl _)

/-- C73: a symbol can be looked up by any index without panicking; it is found if there is a record with this index that is not
deleted, and has the fields of the record. -/
theorem C73_symbol (is64 : Bool) (data : List UInt8) (h : Hdr) (hn : h.nsyms < 2 ^ 32) (t : SymTab) (ht : TableAt is64 data h t) (i : Nat) :
    t.symbol i ≠ .panic ∧
    ((∃ s, t.symbol i = .ok s) ↔ ∃ r, t.records[i]? = some r ∧ r.getD 16 0 ≠ 0) ∧
    ∀ s, t.symbol i = .ok s → ∃ r, t.records[i]? = some r ∧ SymOf is64 r s := by
  have hok := tableAt_ok hn ht
  refine ⟨symbol_no_panic t i, ?_, ?_⟩
  · constructor
    · rintro ⟨s, hs⟩
      obtain ⟨r, h1, h2, -⟩ := (symbol_iff hok i s).1 hs
      exact ⟨r, h1, h2⟩
    · rintro ⟨r, h1, h2⟩
      exact ⟨_, (symbol_iff hok i _).2 ⟨r, h1, h2, rfl⟩⟩
  · intro s hs
    obtain ⟨r, h1, -, h3⟩ := (symbol_iff hok i s).1 hs
    refine ⟨r, h1, ?_⟩
    rw [h3, ht.is64]
    exact Sym.decode_of is64 r

private theorem fieldName_iff (strings : Elf.StrTable) (data f : List UInt8) (hlen : data.length < 2 ^ 64) (hf : f.length = 8) (n : List UInt8) :
    (fieldName strings data f = .ok n ↔ NameIn strings data f n) ∧ fieldName strings data f ≠ .panic := by
  have hh : f.head? = some 0 ↔ f.getD 0 1 = 0 := by
    cases f with
    | nil => simp at hf
    | cons a f => simp
  unfold fieldName NameIn
  by_cases h0 : f.head? = some 0
  · rw [if_pos h0]
    obtain ⟨g1, g2⟩ := C42_string_lookup strings data (rd .big ((f.drop 4).take 4)) n hlen
    refine ⟨?_, g2⟩
    rw [g1]
    simp only [hh.1 h0, true_and, ne_eq, not_true_eq_false, false_and, or_false]
    exact Iff.rfl
  · rw [if_neg h0]
    have h1 : f.getD 0 1 ≠ 0 := fun h => h0 (hh.2 h)
    refine ⟨?_, by simp⟩
    simp only [Res.ok.injEq, upToNul_iff, h1, false_and, false_or, ne_eq, not_false_eq_true, true_and]

/-- C73: the name of a symbol.  In a 64-bit file it is in the string table, in a 32-bit file it is in the record or in the string
table; the name of a symbol of class `C_FILE` (103) with auxiliary records is in the first of them. -/
theorem C73_name (is64 : Bool) (data : List UInt8) (hlen : data.length < 2 ^ 64) (h : Hdr) (hn : h.nsyms < 2 ^ 32) (t : SymTab)
    (ht : TableAt is64 data h t) (i : Nat) (s : Sym) (hs : t.symbol i = .ok s) (n : List UInt8) :
    symName t data i s ≠ .panic ∧
    (¬ (s.sclass = 103 ∧ 0 < s.numaux) → is64 = true → (symName t data i s = .ok n ↔ StringIn t.strings data (rd .big s.name) n)) ∧
    (¬ (s.sclass = 103 ∧ 0 < s.numaux) → is64 = false → (symName t data i s = .ok n ↔ NameIn t.strings data s.name n)) ∧
    (s.sclass = 103 → 0 < s.numaux → (symName t data i s = .ok n ↔
      ∃ r, t.records[i + 1]? = some r ∧ (is64 = true → r.getD 17 0 = 252) ∧ NameIn t.strings data (slice r 0 8) n)) := by
  have hok := tableAt_ok hn ht
  obtain ⟨r, hr, -, rfl⟩ := (symbol_iff hok i s).1 hs
  have h18 := hok.1 r (List.mem_of_getElem? hr)
  by_cases hc : (Sym.decode t.is64 r).sclass = 103 ∧ 0 < (Sym.decode t.is64 r).numaux
  · have e : (Sym.decode t.is64 r).hasAuxFile = true := by
      unfold Sym.hasAuxFile; simp [hc.1, hc.2]
    have key : symName t data i (Sym.decode t.is64 r) ≠ .panic ∧ (symName t data i (Sym.decode t.is64 r) = .ok n ↔
        ∃ r, t.records[i + 1]? = some r ∧ (is64 = true → r.getD 17 0 = 252) ∧ NameIn t.strings data (slice r 0 8) n) := by
      have e2 : t.auxFile i 1 = (t.get i 1).bind fun b =>
          if t.is64 = true ∧ field .big b 17 1 ≠ 252 then .err else .ok ⟨b.take 8, field .big b 14 1⟩ := by
        unfold SymTab.auxFile
        rw [hs]
        simp only [Res.ok_bind, e, if_true]
      unfold symName
      rw [if_pos e, e2]
      cases hg : t.get i 1 with
      | panic => exact absurd hg (get_no_panic _ _ _)
      | err =>
        refine ⟨by simp, ?_⟩
        constructor
        · intro h; cases h
        · rintro ⟨b, hb, -⟩
          rw [(get_iff hok i 1 b).2 hb] at hg
          cases hg
      | ok b =>
        have hb := get_ok hg
        have hb18 := hok.1 b (List.mem_of_getElem? hb)
        have h8 : (b.take 8).length = 8 := by rw [List.length_take]; omega
        obtain ⟨k1, k2⟩ := fieldName_iff t.strings data (b.take 8) hlen h8 n
        have htag : field .big b 17 1 = 252 ↔ b.getD 17 0 = 252 := by
          rw [field_one]
          constructor
          · intro h; exact UInt8.toNat.inj h
          · intro h; rw [h]; rfl
        simp only [Res.ok_bind]
        by_cases hx : t.is64 = true ∧ field .big b 17 1 ≠ 252
        · rw [if_pos hx]
          refine ⟨by simp, ?_⟩
          constructor
          · intro h; cases h
          · rintro ⟨b', hb', htg, -⟩
            rw [hb] at hb'
            simp only [Option.some.injEq] at hb'
            subst hb'
            exact absurd (htag.2 (htg (by rw [← ht.is64]; exact hx.1))) hx.2
        · rw [if_neg hx]
          simp only [Res.ok_bind]
          refine ⟨k2, ?_⟩
          rw [k1]
          constructor
          · intro h
            refine ⟨b, hb, ?_, ?_⟩
            · intro h64
              rw [← ht.is64] at h64
              apply htag.1
              exact Classical.byContradiction fun hne => hx ⟨h64, hne⟩
            · simpa [slice] using h
          · rintro ⟨b', hb', -, h⟩
            rw [hb] at hb'
            simp only [Option.some.injEq] at hb'
            subst hb'
            simpa [slice] using h
    exact ⟨key.1, fun h => absurd hc h, fun h => absurd hc h, fun _ _ => key.2⟩
  · have e : ¬ ((Sym.decode t.is64 r).hasAuxFile = true) := by
      unfold Sym.hasAuxFile
      intro h
      simp only [Bool.and_eq_true, decide_eq_true_eq] at h
      exact hc ⟨h.2, h.1⟩
    have h8 : t.is64 = false → (Sym.decode t.is64 r).name.length = 8 := by
      intro h
      rw [(Sym.decode_of t.is64 r).name, h]
      simp [slice, h18]
    unfold symName
    rw [if_neg e]
    unfold SymTab.name
    rw [ht.is64] at h8 ⊢
    cases is64 with
    | true =>
      obtain ⟨g1, g2⟩ := C42_string_lookup t.strings data (rd .big (Sym.decode true r).name) n hlen
      refine ⟨g2, fun _ _ => ?_, fun _ h => (by cases h), fun h1 h2 => ?_⟩
      · exact g1
      · rw [ht.is64] at hc
        exact absurd ⟨h1, h2⟩ hc
    | false =>
      obtain ⟨g1, g2⟩ := fieldName_iff t.strings data (Sym.decode false r).name hlen (h8 rfl) n
      refine ⟨g2, fun _ h => (by cases h), fun _ _ => g1, fun h1 h2 => ?_⟩
      rw [ht.is64] at hc
      exact absurd ⟨h1, h2⟩ hc

/-- C73: the csect record of a symbol, from which size, kind and being a definition follow, is the last auxiliary record of an
external symbol.  None of these accessors panics. -/
theorem C73_csect (is64 : Bool) (data : List UInt8) (h : Hdr) (hn : h.nsyms < 2 ^ 32) (t : SymTab) (ht : TableAt is64 data h t) (i : Nat)
    (s : Sym) (hs : t.symbol i = .ok s) :
    symSize t i s ≠ .panic ∧ symKind t i s ≠ .panic ∧ isDefinition t i s ≠ .panic ∧
    (∃ a, csectOf t i s = .ok a) ∧
    (∀ a, csectOf t i s = .ok (some a) ↔ Csect s.sclass ∧ 0 < s.numaux ∧ ∃ r, t.records[i + s.numaux]? = some r ∧ CsectIn is64 r a) ∧
    (∀ a, csectOf t i s = .ok (some a) → symSize t i s = .ok (if a.smtyp % 8 = 1 ∨ a.smtyp % 8 = 3 then a.scnlen else 0)) ∧
    (csectOf t i s = .ok none → symSize t i s = .ok 0) := by
  have hok := tableAt_ok hn ht
  have hand : ∀ x : Nat, x &&& 7 = x % 8 := fun x => Nat.and_two_pow_sub_one_eq_mod x 3
  have hlen0 : ∀ b : List UInt8, scnlen t.is64 b = field .big b 0 4 + if is64 then 2 ^ 32 * field .big b 12 4 else 0 := by
    intro b
    unfold scnlen
    rw [ht.is64]
    cases is64 with
    | false => rfl
    | true =>
      simp only [if_true]
      have h1 : field .big b 0 4 < 2 ^ 32 := field_lt .big b 0 4
      rw [Nat.or_comm, Nat.shiftLeft_eq, Nat.mul_comm, ← Nat.two_pow_add_eq_or_of_lt h1, Nat.add_comm]
  have haux : s.hasAuxCsect = true → t.auxCsect i s.numaux = (t.get i s.numaux).bind fun b =>
      if t.is64 = true ∧ field .big b 17 1 ≠ 251 then .err else .ok ⟨scnlen t.is64 b, field .big b 10 1, field .big b 11 1⟩ := by
    intro e
    unfold SymTab.auxCsect
    rw [hs]
    simp only [Res.ok_bind, e, if_true]
  have hcs : s.hasAuxCsect = true ↔ Csect s.sclass ∧ 0 < s.numaux := by
    unfold Sym.hasAuxCsect Csect
    simp only [Bool.and_eq_true, decide_eq_true_eq, And.comm]
  have main : (∃ a, csectOf t i s = .ok a) ∧
      (∀ a, csectOf t i s = .ok (some a) ↔ Csect s.sclass ∧ 0 < s.numaux ∧ ∃ r, t.records[i + s.numaux]? = some r ∧ CsectIn is64 r a) := by
    unfold csectOf
    by_cases e : s.hasAuxCsect = true
    · rw [if_pos e, haux e]
      have e' := hcs.1 e
      cases hg : t.get i s.numaux with
      | panic => exact absurd hg (get_no_panic _ _ _)
      | err =>
        simp only [Res.err_bind]
        refine ⟨⟨_, rfl⟩, fun a => ?_⟩
        constructor
        · intro h; cases h
        · rintro ⟨-, -, b, hb, -⟩
          rw [(get_iff hok i s.numaux b).2 hb] at hg
          cases hg
      | ok b =>
        have hb := get_ok hg
        simp only [Res.ok_bind]
        by_cases hx : t.is64 = true ∧ field .big b 17 1 ≠ 251
        · rw [if_pos hx]
          simp only
          refine ⟨⟨_, rfl⟩, fun a => ?_⟩
          constructor
          · intro h; cases h
          · rintro ⟨-, -, b', hb', hin⟩
            rw [hb] at hb'
            simp only [Option.some.injEq] at hb'
            subst hb'
            exact absurd (hin.tag (by rw [← ht.is64]; exact hx.1)) hx.2
        · rw [if_neg hx]
          simp only
          refine ⟨⟨_, rfl⟩, fun a => ?_⟩
          simp only [Res.ok.injEq, Option.some.injEq]
          constructor
          · rintro rfl
            refine ⟨e'.1, e'.2, b, hb, hlen0 b, rfl, rfl, fun h64 => ?_⟩
            rw [← ht.is64] at h64
            exact Classical.byContradiction fun hne => hx ⟨h64, hne⟩
          · rintro ⟨-, -, b', hb', hin⟩
            rw [hb] at hb'
            simp only [Option.some.injEq] at hb'
            subst hb'
            obtain ⟨i1, i2, i3, -⟩ := hin
            cases a
            simp only at i1 i2 i3
            rw [hlen0, i1, i2, i3]
    · rw [if_neg e]
      refine ⟨⟨_, rfl⟩, fun a => ?_⟩
      constructor
      · intro h; cases h
      · rintro ⟨h1, h2, -⟩
        exact absurd (hcs.2 ⟨h1, h2⟩) e
  obtain ⟨⟨x, hx⟩, m2⟩ := main
  refine ⟨?_, ?_, ?_, ⟨x, hx⟩, m2, ?_, ?_⟩
  · unfold symSize
    rw [hx, Res.ok_bind]
    cases x <;> simp
  · unfold symKind
    rw [hx, Res.ok_bind]
    cases x <;> simp
  · unfold isDefinition
    split
    · simp
    · rw [hx, Res.ok_bind]
      cases x <;> simp
  · intro a ha
    unfold symSize
    rw [ha, Res.ok_bind]
    simp only [CsectAux.symType, hand]
  · intro ha
    unfold symSize
    rw [ha, Res.ok_bind]

/-! A concrete 32-bit file: one section of 4 bytes with one relocation, a file symbol, a deleted symbol and an external
symbol with a long name. -/

/-- (concrete file) -/
def xcoffFile : List UInt8 :=
  Hdr.encode false ⟨1, 0, 20 + 40 + 4 + 10, 6, 0, 0⟩ ++
  Sect.encode false ⟨[46, 116, 101, 120, 116, 0, 0, 0], 0, 0, 4, 60, 64, 0, 1, 0, 0x20⟩ ++
  [1, 2, 3, 4] ++
  Rel.encode false ⟨2, 4, 31, 0⟩ ++
  Sym.encode false ⟨[46, 102, 105, 108, 101, 0, 0, 0], 0, 65534, 0, 103, 1⟩ ++
  FileAux.encode false ⟨[97, 46, 99, 0, 0, 0, 0, 0], 0⟩ ++
  Sym.encode false ⟨[97, 0, 0, 0, 0, 0, 0, 0], 0, 0, 0, 0, 1⟩ ++ List.replicate 18 7 ++
  Sym.encode false ⟨[0, 0, 0, 0, 0, 0, 0, 4], 0, 1, 0, 2, 1⟩ ++
  CsectAux.encode false ⟨4, 1, 0⟩ ++
  wr .big 4 15 ++ [108, 111, 110, 103, 95, 110, 97, 109, 101, 115, 0]

/-- The file is accepted; its symbols are those with index 0 and 4. -/
example : ∃ f xs, File.parse false xcoffFile = .ok f ∧ f.sections.length = 1 ∧ Runs f.symbols.next 0 xs .done ∧ xs.map (·.1) = [0, 4] ∧
    (f.sections.map fun s => s.data xcoffFile) = [.ok [1, 2, 3, 4]] ∧
    (xs.map fun p => symName f.symbols xcoffFile p.1 p.2) = [.ok "a.c".toUTF8.toList, .ok "long_names".toUTF8.toList] ∧
    (xs.map fun p => symSize f.symbols p.1 p.2) = [.ok 0, .ok 4] := by
  obtain ⟨f, hf⟩ : ∃ f, File.parse false xcoffFile = .ok f := by
    have : ∃ r, File.parse false xcoffFile = r := ⟨_, rfl⟩
    obtain ⟨r, hr⟩ := this
    have h : (match File.parse false xcoffFile with | .ok _ => true | _ => false) = true := by decide +kernel
    cases r with
    | ok f => exact ⟨f, hr⟩
    | err => rw [hr] at h; cases h
    | panic => rw [hr] at h; cases h
  have hrun : ∀ f, File.parse false xcoffFile = .ok f →
      f.symbols.next 0 = (.ok (some (0, ⟨[46, 102, 105, 108, 101, 0, 0, 0], 0, 65534, 0, 103, 1⟩)), 2) ∧
      f.symbols.next 2 = (.ok (some (4, ⟨[0, 0, 0, 0, 0, 0, 0, 4], 0, 1, 0, 2, 1⟩)), 6) ∧ f.symbols.next 6 = (.ok none, 6) ∧
      f.sections.length = 1 ∧ (f.sections.map fun s => s.data xcoffFile) = [.ok [1, 2, 3, 4]] ∧
      symName f.symbols xcoffFile 0 ⟨[46, 102, 105, 108, 101, 0, 0, 0], 0, 65534, 0, 103, 1⟩ = .ok "a.c".toUTF8.toList ∧
      symName f.symbols xcoffFile 4 ⟨[0, 0, 0, 0, 0, 0, 0, 4], 0, 1, 0, 2, 1⟩ = .ok "long_names".toUTF8.toList ∧
      symSize f.symbols 0 ⟨[46, 102, 105, 108, 101, 0, 0, 0], 0, 65534, 0, 103, 1⟩ = .ok 0 ∧
      symSize f.symbols 4 ⟨[0, 0, 0, 0, 0, 0, 0, 4], 0, 1, 0, 2, 1⟩ = .ok 4 := by
    have key : ∃ f, File.parse false xcoffFile = .ok f ∧ 
      f.symbols.next 0 = (.ok (some (0, ⟨[46, 102, 105, 108, 101, 0, 0, 0], 0, 65534, 0, 103, 1⟩)), 2) ∧
      f.symbols.next 2 = (.ok (some (4, ⟨[0, 0, 0, 0, 0, 0, 0, 4], 0, 1, 0, 2, 1⟩)), 6) ∧ f.symbols.next 6 = (.ok none, 6) ∧
      f.sections.length = 1 ∧ (f.sections.map fun s => s.data xcoffFile) = [.ok [1, 2, 3, 4]] ∧
      symName f.symbols xcoffFile 0 ⟨[46, 102, 105, 108, 101, 0, 0, 0], 0, 65534, 0, 103, 1⟩ = .ok "a.c".toUTF8.toList ∧
      symName f.symbols xcoffFile 4 ⟨[0, 0, 0, 0, 0, 0, 0, 4], 0, 1, 0, 2, 1⟩ = .ok "long_names".toUTF8.toList ∧
      symSize f.symbols 0 ⟨[46, 102, 105, 108, 101, 0, 0, 0], 0, 65534, 0, 103, 1⟩ = .ok 0 ∧
      symSize f.symbols 4 ⟨[0, 0, 0, 0, 0, 0, 0, 4], 0, 1, 0, 2, 1⟩ = .ok 4 := by
      refine ⟨⟨false, ⟨1, 0, 74, 6, 0, 0⟩, none,
        [⟨[46, 116, 101, 120, 116, 0, 0, 0], 0, 0, 4, 60, 64, 0, 1, 0, 0x20⟩],
        ⟨false, Bytes.chunks 18 6 (slice xcoffFile 74 108), some (182, 197)⟩⟩, ?_⟩
      decide +kernel
    intro f hf
    obtain ⟨g, hg, h⟩ := key
    rw [hf] at hg
    simp only [Res.ok.injEq] at hg
    rw [hg]; exact h
  obtain ⟨r1, r2, r3, r4, r5, r6, r7, r8, r9⟩ := hrun f hf
  exact ⟨f, [(0, ⟨[46, 102, 105, 108, 101, 0, 0, 0], 0, 65534, 0, 103, 1⟩), (4, ⟨[0, 0, 0, 0, 0, 0, 0, 4], 0, 1, 0, 2, 1⟩)], hf, r4,
    .item r1 (.item r2 (.done r3)), rfl, r5, by simp only [List.map_cons, List.map_nil, r6, r7], by simp only [List.map_cons, List.map_nil, r8, r9]⟩

end Obj.Props
