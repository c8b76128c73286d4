import Verif.Proof.ElfW12

/-! The object is read back. -/

namespace Obj.ElfW
open Obj Obj.Elf Obj.Reserve Obj.Parts Obj.Spec Obj.W Obj.Spec.ElfO Obj.Spec.ElfS

theorem at_string {data tab s : List UInt8} {off p : Nat} (h : At data off tab) (hs : StringAt tab s p) :
    At data (off + p) (s ++ [0]) ∧ p + s.length < tab.length := by
  obtain ⟨a, b, rfl, rfl⟩ := hs
  rw [show a ++ s ++ 0 :: b = a ++ ((s ++ [0]) ++ b) by simp, at_append, at_append] at h
  exact ⟨h.2.1, by simp⟩

private theorem machines : ∀ a ∈ allArch, ∀ m, elfMachine a = .ok m → m < 2 ^ 16 := by
  intro a ha m hm
  have : ∀ a ∈ allArch, (match elfMachine a with | .ok m => decide (m < 2 ^ 16) | _ => true) = true := by decide +kernel
  have := this a ha
  rw [hm] at this
  simpa using this

theorem elfFlags_lt (a : Arch) {f : Nat} (h : f < 2 ^ 32) : elfFlags a f < 2 ^ 32 := by
  unfold elfFlags
  have h1 : f ||| 32 < 2 ^ 32 := Nat.or_lt_two_pow h (by decide)
  have h2 : f ||| 16 < 2 ^ 32 := Nat.or_lt_two_pow h (by decide)
  have h3 : (f ||| 32) ||| 16 < 2 ^ 32 := Nat.or_lt_two_pow h1 (by decide)
  simp only
  split <;> split <;> assumption

theorem mem_secHdrs_link (c : Cfg) (r : Bool) (nm : List UInt8 → Nat) (sy : Nat) : ∀ (ss : List Section) (n len rlen : Nat) (h : Shdr),
    h ∈ secHdrs c r nm sy n len rlen ss → h.link = 0 ∧ (∃ s ∈ ss, h.type = ((sectionFlags s).getD (0, 0)).1) ∨ h.type = (if r then 4 else 9)
  | [], _, _, _, h, hh => by simp [secHdrs] at hh
  | s :: ss, n, len, rlen, h, hh => by
    rw [secHdrs.eq_2] at hh
    rcases List.mem_append.1 hh with hh | hh
    · unfold secHdr1 at hh
      rcases List.mem_cons.1 hh with rfl | hh
      · exact .inl ⟨rfl, s, by simp, rfl⟩
      · split at hh
        · simp at hh
        · simp only [List.mem_singleton] at hh; subst hh; exact .inr rfl
    · rcases mem_secHdrs_link c r nm sy ss _ _ _ h hh with ⟨h1, s', hs', h2⟩ | h1
      · exact .inl ⟨h1, s', by simp [hs'], h2⟩
      · exact .inr h1

theorem mem_comdatHdrs_type (nm : List UInt8 → Nat) (sy : Nat) (ix : List Nat) : ∀ (ds : List Comdat) (len : Nat) (h : Shdr),
    h ∈ comdatHdrs nm sy ix len ds → h.type = 17
  | [], _, h, hh => by simp [comdatHdrs] at hh
  | d :: ds, len, h, hh => by
    rw [comdatHdrs.eq_2] at hh
    rcases List.mem_cons.1 hh with rfl | hh
    · rfl
    · exact mem_comdatHdrs_type nm sy ix ds _ h hh

theorem need_iff (o : Object) : needB o = true ↔ ∃ s ∈ o.symbols, ∃ j, s.section_ = .inSec j ∧ 0xff00 ≤ secIndex o j := by
  rw [needB_eq, List.any_eq_true]
  constructor
  · rintro ⟨s, hs, h⟩
    refine ⟨s, hs, ?_⟩
    unfold symSec at h
    cases hsec : s.section_ with
    | inSec j => rw [hsec] at h; exact ⟨j, rfl, by simpa [largeIndex] using h⟩
    | none => rw [hsec] at h; simp [largeIndex] at h
    | undefined => rw [hsec] at h; simp [largeIndex] at h
    | absolute => rw [hsec] at h; simp [largeIndex] at h
    | common => rw [hsec] at h; simp [largeIndex] at h
  · rintro ⟨s, hs, j, h1, h2⟩
    exact ⟨s, hs, by unfold symSec; rw [h1]; simpa [largeIndex] using h2⟩

theorem needSymtab_eq (o : Object) (U : StrTab) : needSymtabShndx (wsyms o U) = true → needB o = true := by
  unfold needSymtabShndx wsyms
  rw [List.any_eq_true, needB_eq, List.any_eq_true]
  rintro ⟨w, hw, h⟩
  obtain ⟨s, hs, rfl⟩ := List.mem_map.1 hw
  refine ⟨s, ?_, ?_⟩
  · rcases List.mem_append.1 hs with hs | hs
    · exact (List.mem_filter.1 hs).1
    · exact (List.mem_filter.1 hs).1
  · have e : (wsymOf o U s).sec = symSec o s := rfl
    rw [e] at h
    cases hq : symSec o s with
    | none => rw [hq] at h; simp at h
    | some n => rw [hq] at h; simpa [largeIndex] using h

theorem secIndex_lt (o : Object) {j : Nat} : secIndex o j ≤ symtabIndex o := by
  rw [secIndex_eq, symtabIndex_eq]
  have : ∀ (ss : List Section) (j : Nat), hdrs (ss.take j) ≤ hdrs ss := by
    intro ss
    induction ss with
    | nil => intro j; simp
    | cons s ss ih =>
      intro j
      cases j with
      | zero => simp [hdrs]
      | succ j => rw [List.take_succ_cons, hdrs_cons, hdrs_cons]; have := ih j; omega
  have := this o.sections j
  omega

theorem hdrs_cover : ∀ (ss : List Section) (k : Nat), k < hdrs ss →
    ∃ i s, ss[i]? = some s ∧ (k = hdrs (ss.take i) ∨ (k = hdrs (ss.take i) + 1 ∧ s.relocs ≠ []))
  | [], k, h => by simp [hdrs] at h
  | s :: ss, k, h => by
    rw [hdrs_cons] at h
    by_cases hk : k < hdrCount s
    · refine ⟨0, s, rfl, ?_⟩
      rw [List.take_zero]
      show k = 0 ∨ k = 0 + 1 ∧ _
      unfold hdrCount at hk
      split at hk
      · omega
      · rename_i hr; by_cases h0 : k = 0
        · exact .inl h0
        · exact .inr ⟨by omega, hr⟩
    · obtain ⟨i, s', h1, h2⟩ := hdrs_cover ss (k - hdrCount s) (by omega)
      refine ⟨i + 1, s', h1, ?_⟩
      rw [List.take_succ_cons, hdrs_cons]
      rcases h2 with h2 | ⟨h2, h3⟩
      · left; omega
      · right; exact ⟨by omega, h3⟩

theorem secIndex_cover (o : Object) (k : Nat) (h1 : 1 + o.comdats.length ≤ k) (h2 : k < symtabIndex o) :
    ∃ i s, o.sections[i]? = some s ∧ (k = secIndex o i ∨ (k = secIndex o i + 1 ∧ s.relocs ≠ [])) := by
  rw [symtabIndex_eq] at h2
  obtain ⟨i, s, h3, h4⟩ := hdrs_cover o.sections (k - (1 + o.comdats.length)) (by omega)
  refine ⟨i, s, h3, ?_⟩
  rw [secIndex_eq]
  rcases h4 with h4 | ⟨h4, h5⟩
  · left; omega
  · right; exact ⟨by omega, h5⟩

theorem mem_wsyms {o : Object} {U : StrTab} {w : WSym} (h : w ∈ wsyms o U) : ∃ s ∈ o.symbols, w = wsymOf o U s := by
  unfold wsyms at h
  obtain ⟨s, hs, rfl⟩ := List.mem_map.1 h
  refine ⟨s, ?_, rfl⟩
  rcases List.mem_append.1 hs with hs | hs
  · exact (List.mem_filter.1 hs).1
  · exact (List.mem_filter.1 hs).1

theorem e_rela : ".rela".toUTF8.toList = nRela := by decide +kernel
theorem e_rel : ".rel".toUTF8.toList = nRel := by decide +kernel
theorem e_group : ".group".toUTF8.toList = nGroup := by decide +kernel

theorem flatMap_congr' {α β : Type _} {f g : α → List β} : ∀ {l : List α}, (∀ a ∈ l, f a = g a) → l.flatMap f = l.flatMap g
  | [], _ => rfl
  | a :: l, h => by rw [List.flatMap_cons, List.flatMap_cons, h a (by simp), flatMap_congr' fun b hb => h b (by simp [hb])]

/-- The relocations as they are read back. -/
def relsBack (o : Object) (r : Bool) (s : Section) : List Rel :=
  s.relocs.map fun y => ⟨y.offset, symIndex o y.symbol, relType y, if r then y.addend else 0⟩

theorem relBytes_eq (o : Object) (hv : Valid o) (c : Cfg) (mips r : Bool) {s : Section} (hmem : s ∈ o.sections) :
    relBytes c mips r (finalIx o) s.relocs = (relsBack o r s).flatMap (writeRel c mips r) := by
  unfold relBytes relsBack
  rw [List.flatMap_map, List.flatMap_map]
  apply flatMap_congr'
  intro y hy
  unfold relOf
  rw [finalIx_get o _ (hv.relocSymbol s hmem y hy)]
  unfold writeRel
  cases r <;> simp

set_option maxHeartbeats 1000000 in
theorem done_readsBack (o : Object) (hv : Valid o) (hasSub : Bool) (flags : FileFlags) (hfl : ∀ a b f, flags = .elf a b f → f < 2 ^ 32)
    (r is64 : Bool) (m : Nat) (x : Strs) (hdr out : List UInt8) (D : Done o hasSub flags r is64 m x hdr out) (hf : ElfO.Fits o is64 r) :
    ∃ e t, ReadsBack o m flags is64 r out e t := by
  obtain ⟨hr, hi, hm, hsub, hx, hhdr, hhl, hout, hlen, hsmall, hk, hsymf, hsecf, hrelf⟩ := D
  generalize hc : (⟨is64, o.endian⟩ : Cfg) = c at *
  have hcis : c.is64 = is64 := by rw [← hc]
  subst hcis
  obtain ⟨b1, b2, b3, b4, b5, b6, b7, b8, b9⟩ := bounds o c r (needB o) x.data.length x.shd.length
  have hroom := hv.room
  have hdl := hx.wu.len
  have hsl := hx.wt.len
  have hlen64 : out.length < 2 ^ 64 := by omega
  have hlw : out.length < wordMax c.is64 := by
    unfold wordMax
    cases hb : c.is64
    · have := hsmall hb; simp only [Bool.false_eq_true, if_false]; omega
    · simp only [if_true]; omega
  generalize hmips : isMips64el c m = mips at *
  have hout' : out = fileOf o c mips r x hdr := hout
  have hfits := allHdrs_fits o hv c r x hx hf (by rw [← hlen]; exact hlw)
  have htl := total_lt o hv
  have hte := total_eq o (needB o)
  have hst : strtabIndex o (needB o) = symtabIndex o + 1 + ifn (needB o) 1 := rfl
  have hsy := symtabIndex_eq o
  have hw32 : 2 ^ 32 ≤ wordMax c.is64 := by unfold wordMax; split <;> decide
  have hL8 : L8 o c r (needB o) x.data.length x.shd.length =
      up (L6 o c r (needB o) x.data.length + x.shd.length) c.w + total o (needB o) * c.shdrSize := rfl
  have hu8 := le_up (L6 o c r (needB o) x.data.length + x.shd.length) c.w
  have hehs := ehdrSize_le c
  have hL6' := le_endOf (relSizes c r o.sections) (L4 o c (needB o) + x.data.length)
  have hL6 : L6 o c r (needB o) x.data.length = endOf (L4 o c (needB o) + x.data.length) (relSizes c r o.sections) := rfl
  have hL4' := le_endOf (shndxSizes (needB o) (num o)) (L3 o c)
  have hL4 : L4 o c (needB o) = endOf (L3 o c) (shndxSizes (needB o) (num o)) := rfl
  have hL3 : L3 o c = up (L2 o c) c.w + num o * c.symSize := rfl
  have hupL2 := le_up (L2 o c) c.w
  -- the file header
  have hfs : (headerOf o.arch m flags).flags < 2 ^ 32 := by
    cases hff : flags with
    | elf a b f => exact elfFlags_lt o.arch (hfl a b f hff)
    | other => exact elfFlags_lt o.arch (by decide)
  have hHF : HeaderFits c.is64 (headerOf o.arch m flags) (layoutOf o c r x) := by
    refine ⟨?_, ?_, ?_, hfs, ?_, ?_, ?_, ?_, ?_⟩
    · have : (headerOf o.arch m flags).type = 1 := by cases flags <;> rfl
      omega
    · rw [headerOf_machine]; exact machines o.arch (mem_allArch _) m hm
    · have : (headerOf o.arch m flags).entry = 0 := by cases flags <;> rfl
      omega
    · show 0 < _; omega
    · show up (L6 o c r (needB o) x.data.length + x.shd.length) c.w < _; omega
    · show 0 < _; decide
    · show total o (needB o) < _; omega
    · show strtabIndex o (needB o) + 1 < _; omega
  have hshoff : (layoutOf o c r x).shoff ≠ 0 := by
    show up (L6 o c r (needB o) x.data.length + x.shd.length) c.w ≠ 0; omega
  have hAh := at_headers (o := o) (c := c) (r := r) (mips := mips) (x := x) (hdr := hdr) hhl
  have hA0 := at_hdr (o := o) (c := c) (r := r) (mips := mips) (x := x) (hdr := hdr)
  have hAs := at_shstrtab (o := o) (c := c) (r := r) (mips := mips) (x := x) (hdr := hdr) hhl
  have hAt := at_strtab (o := o) (c := c) (r := r) (mips := mips) (x := x) (hdr := hdr) hhl
  have hAy := at_symtab (o := o) (c := c) (r := r) (mips := mips) (x := x) (hdr := hdr) hhl
  rw [← hout'] at hAh hA0 hAs hAt hAy
  obtain ⟨e, null, he, hsh, hph⟩ := Props.C33_tables_round_trip c (headerOf o.arch m flags) (layoutOf o c r x) hHF hdr out
    (allHdrs o c r x) [] hfits (by simp) hlen64 hhdr hA0
    (by show total o (needB o) = _; rw [← length_allHdrs o c r x]; omega) rfl hshoff (by simp) hAh
    (by unfold At slice; simp)
  obtain ⟨e', he', e1, e2, e3, e4, e5, e6, e7, -, -, -, -, e8, -⟩ := Props.C33_counts_round_trip c (headerOf o.arch m flags) (layoutOf o c r x)
    hHF hdr out hhdr hA0 (by intro h; have : total o (needB o) = 0 := h; omega) (fun _ => ⟨hshoff, (at_append.1 hAh).1⟩)
  have hee : e' = e := by rw [he] at he'; injection he' with he'; injection he' with _ he'; exact he'.symm
  subst hee
  have hsx : shstrndx c e' out = .ok (strtabIndex o (needB o) + 1) := e8 (by show strtabIndex o (needB o) + 1 ≠ 0; omega)
  have hget := fun k => get_tail (o := o) (c := c) (r := r) (x := x) (null := null) k
  -- the section table
  generalize hT : (⟨null :: allHdrs o c r x, some (L6 o c r (needB o) x.data.length, L6 o c r (needB o) x.data.length + x.shd.length)⟩ : SectionTable) = t
  have hts : t.sections = null :: allHdrs o c r x := by rw [← hT]
  have htn : t.strings = some (L6 o c r (needB o) x.data.length, L6 o c r (needB o) x.data.length + x.shd.length) := by rw [← hT]
  have hsecs : sections c e' out = .ok t := by
    unfold sections
    rw [hsh]
    simp only [Res.bind_eq, Res.ok_bind]
    unfold sectionStrings
    rw [if_neg (by simp), hsx]
    simp only
    rw [get_shstrtab]
    simp only [Shdr.fileRange]
    rw [if_neg (by decide)]
    simp only
    rw [if_neg (by omega)]
    simp only [Res.ok_bind]
    rw [hT]
  have hsec : ∀ {k : Nat} {h : Shdr}, k ≠ 0 → (null :: allHdrs o c r x)[k]? = some h → t.section k = .ok h := by
    intro k h hk hg
    exact (Props.C42_section_index t k h).1.2 ⟨hk, by rw [hts]; exact hg⟩
  have hname : ∀ {h : Shdr} {n : List UInt8}, n ∈ shNames o r (needB o) → h.name = nmOf x.T n → t.sectionName out h = .ok n := by
    intro h n hn hhn
    obtain ⟨h1, h2⟩ := at_string hAs (nm_lt hx hn).2
    rw [(Props.C42_names out hlen64 n).1]
    refine ⟨_, _, htn, by omega, by rw [hhn]; omega, by rw [hhn]; exact h1, shNames_nul o hv r _ n hn⟩
  have hnull : null.type = 0 := by
    have h0 := (Props.C42_section_headers_in_bounds c e' out _ hsh).1 0 null rfl
    have := (at_append.1 hAh).1
    have hsho : e'.shoff = (layoutOf o c r x).shoff := by
      obtain ⟨e'', he'', _, _, _, _, _, _, _, _, hso, _⟩ := Props.C33_counts_round_trip c (headerOf o.arch m flags) (layoutOf o c r x)
        hHF hdr out hhdr hA0 (by intro h; have : total o (needB o) = 0 := h; omega) (fun _ => ⟨hshoff, (at_append.1 hAh).1⟩)
      have : e'' = e' := by rw [he] at he''; injection he'' with he''; injection he'' with _ he''; exact he''.symm
      rw [this] at hso; exact hso
    rw [hsho, Nat.zero_mul, Nat.add_zero] at h0
    have hsl0 : slice out (layoutOf o c r x).shoff c.shdrSize = nullSectionHeader c (layoutOf o c r x) := by
      have h1 := this
      unfold At at h1
      unfold nullSectionHeader at h1 ⊢
      rw [Shdr.length_encode] at h1
      exact h1
    rw [hsl0] at h0
    have : (Shdr.decode c (nullSectionHeader c (layoutOf o c r x))).type = 0 := by
      unfold nullSectionHeader
      have hd := Shdr.decode_encode c ⟨0, 0, 0, 0, 0, if 0xff00 ≤ (layoutOf o c r x).sectionNum then (layoutOf o c r x).sectionNum else 0,
        if 0xff00 ≤ (layoutOf o c r x).shstrtabIndex then (layoutOf o c r x).shstrtabIndex else 0,
        if 0xffff ≤ (layoutOf o c r x).segmentNum then (layoutOf o c r x).segmentNum else 0, 0, 0⟩ (by
          have q1 : (layoutOf o c r x).sectionNum = total o (needB o) := rfl
          have q2 : (layoutOf o c r x).shstrtabIndex = strtabIndex o (needB o) + 1 := rfl
          have q3 : (layoutOf o c r x).segmentNum = 0 := rfl
          refine ⟨by simp, by simp, ?_, ?_, ?_, ?_, ?_, ?_, ?_, ?_⟩ <;> simp only
          all_goals first | omega | (split <;> omega)) []
      rw [List.append_nil] at hd
      rw [hd]
    rw [← h0] at this
    exact this
  refine ⟨e', t, ⟨?_, ?_, ?_, ?_, ?_, ?_, ?_, ?_, ?_, ?_⟩⟩
  · rw [hc]; exact he
  · refine ⟨?_, ?_, ?_, e5, ?_, ?_⟩
    · rw [e3]; cases flags <;> rfl
    · rw [e4, headerOf_machine]
    · rw [e6]; cases flags <;> rfl
    · rintro a b f rfl; exact ⟨e1, e2, e7⟩
    · rintro rfl; exact ⟨e1, e2, e7⟩
  · rw [hc]; exact hph
  · rw [hc]; exact hsecs
  · have hl : t.sections.length = symtabIndex o + 3 + ifn (needB o) 1 := by
      rw [hts, List.length_cons]
      have := length_allHdrs o c r x
      omega
    cases hb : needB o with
    | true => exact .inl ⟨(need_iff o).1 hb, by rw [hl, hb]; rfl⟩
    | false =>
      refine .inr ⟨?_, by rw [hl, hb]; rfl⟩
      intro s hs j hj
      have := mt (need_iff o).2 (by rw [hb]; simp)
      by_cases hlt : secIndex o j < 0xff00
      · exact hlt
      · exact absurd ⟨s, hs, j, hj, by omega⟩ this
  · -- sections
    intro i s his
    have hmem : s ∈ o.sections := List.mem_of_getElem? his
    obtain ⟨g1, -⟩ := get_section (o := o) (c := c) (r := r) (x := x) (null := null) his
    refine ⟨secHdr (nmOf x.T) (endOf (L1 o c) (secSizes (o.sections.take i))) s, ⟨hsec (by rw [secIndex_eq]; omega) g1, hname (sec_shNames hmem).1 rfl,
      ?_, rfl, rfl, rfl, rfl, ⟨rfl, rfl⟩, fun h => up_mod _ _ h, ?_⟩⟩
    · cases hq : sectionFlags s with
      | none => exact absurd hq (hsecf s hmem)
      | some p => unfold secHdr; rw [hq]; rfl
    · intro h8 hsz
      have hA := at_section (o := o) (c := c) (r := r) (mips := mips) (x := x) (hdr := hdr) hhl his
      rw [← hout'] at hA
      unfold Shdr.data Shdr.fileRange
      rw [if_neg h8]
      show ReadRef.readBytesAt out (up (endOf (L1 o c) (secSizes (o.sections.take i))) s.align) s.size = _
      rw [← hsz]
      exact at_read hA
  · -- relocations
    intro i s his hne
    rw [e4, headerOf_machine, hc, hmips]
    have hmem : s ∈ o.sections := List.mem_of_getElem? his
    obtain ⟨-, g2⟩ := get_section (o := o) (c := c) (r := r) (x := x) (null := null) his
    have g2 := g2 hne
    have hA := at_relocs (o := o) (c := c) (r := r) (mips := mips) (x := x) (hdr := hdr) hhl his hne
    rw [← hout'] at hA
    have hrels := relBytes_eq o hv c mips r hmem
    refine ⟨_, relsBack o r s,
      ⟨hsec (by omega) g2, ?_, rfl, rfl, ?_, by simp [relsBack], ?_⟩⟩
    · have := hname (h := relHdr c r (nmOf x.T) (symtabIndex o) (secIndex o i) (endOf (L4 o c (needB o) + x.data.length) (relSizes c r (o.sections.take i))) s)
        ((sec_shNames hmem).2 hne) rfl
      rw [this]
      unfold relocName
      cases r
      · simp only [Bool.false_eq_true, if_false, e_rel]
      · simp only [if_true, e_rela]
    · refine Props.C34_section_round_trip c mips r _ ?_ (relHdr c r (nmOf x.T) (symtabIndex o) (secIndex o i) _ s) rfl out hlen64 ?_ ?_
      · intro y hy
        obtain ⟨z, hz, rfl⟩ := List.mem_map.1 hy
        obtain ⟨tt, ht⟩ := hrelf s hmem z hz
        have := hf.relocs s hmem z hz tt ht
        have e : relType z = tt := by unfold relType; rw [ht]
        rw [e]
        exact this
      · rw [← hrels, length_relBytes]; rfl
      · rw [← hrels]; exact hA
    · intro k y hy
      refine ⟨_, by unfold relsBack; rw [List.getElem?_map, hy]; rfl, rfl, rfl, ?_, rfl⟩
      obtain ⟨tt, ht⟩ := hrelf s hmem y (List.mem_of_getElem? hy)
      rw [ht]
      show _ = RelocFlags.elf (relType y)
      unfold relType
      rw [ht]
  · -- symbols
    have g := get_symtab (o := o) (c := c) (r := r) (x := x) (null := null)
    have gs := get_strtab (o := o) (c := c) (r := r) (x := x) (null := null)
    have hstr : t.stringsAt (strtabIndex o (needB o)) = .ok (some (L4 o c (needB o), L4 o c (needB o) + x.data.length)) := by
      unfold SectionTable.stringsAt
      rw [if_neg (by omega), hsec (by omega) gs]
      unfold Shdr.strings
      simp only [ne_eq, not_true, if_false]
      rw [if_neg (by omega)]
    have hwl := length_wsyms o x.U
    have htypes : ∀ h ∈ t.sections, h.type = 18 → h.link = symtabIndex o → needB o = true ∧
        h = ⟨nmOf x.T nShndx, 18, 0, 0, up (L3 o c) 4, num o * 4, symtabIndex o, 0, 4, 4⟩ := by
      intro h hh ht hl
      rw [hts] at hh
      rcases List.mem_cons.1 hh with rfl | hh
      · omega
      · unfold allHdrs at hh
        rcases List.mem_append.1 hh with hh | hh
        · have := mem_comdatHdrs_type _ _ _ _ _ h hh; omega
        rcases List.mem_append.1 hh with hh | hh
        · rcases mem_secHdrs_link _ _ _ _ _ _ _ _ h hh with ⟨h1, -⟩ | h1
          · omega
          · rw [ht] at h1; split at h1 <;> omega
        · unfold tailHdrs at hh
          rcases List.mem_append.1 hh with hh | hh
          · simp only [List.mem_singleton] at hh; subst hh; simp only at ht; omega
          rcases List.mem_append.1 hh with hh | hh
          · cases hb : needB o with
            | false => rw [hb] at hh; simp at hh
            | true =>
              rw [if_pos hb] at hh
              simp only [List.mem_singleton] at hh
              exact ⟨rfl, hh⟩
          · simp only [List.mem_cons, List.not_mem_nil, or_false] at hh
            rcases hh with rfl | rfl <;> (simp only at ht; omega)
    obtain ⟨tab, htab, hts1, htl1, hts2⟩ := Props.C47_symbols_round_trip c out t (symtabIndex o) _ _ (wsyms o x.U)
      (by
        intro w hw
        obtain ⟨s, hs, rfl⟩ := mem_wsyms hw
        obtain ⟨f1, f2⟩ := hf.value s hs
        have f3 : ((symbolFlags s).getD (0, 0)).1 < 2 ^ 8 ∧ ((symbolFlags s).getD (0, 0)).2 < 2 ^ 8 := by
          cases hq : symbolFlags s with
          | none => decide
          | some p => exact hf.symFlags s hs p.1 p.2 hq
        refine ⟨?_, f3.1, f3.2, ?_, f1, f2, ?_⟩
        · show symName x.U s < _
          unfold symName
          split
          · rename_i hn
            exact (nmOf_spec hx.wu (by rw [hx.u]; exact symName_mem o s hs hn)).2.1
          · decide
        · show shndxOf s < _
          unfold shndxOf
          split <;> decide
        · intro n hn
          have hn' : symSec o s = some n := hn
          unfold symSec at hn'
          split at hn'
          · injection hn' with hn'
            rename_i j _
            have := secIndex_lt o (j := j)
            omega
          · simp at hn')
      hlen64 (by omega) (by rw [hts]; exact g) (.inl rfl) hstr
      ⟨by simp, by rw [length_symtabBytes, hwl]; rfl, hAy⟩
      (by
        intro h hh ht hl
        obtain ⟨hb, rfl⟩ := htypes h hh ht hl
        have hA := at_shndx (o := o) (c := c) (r := r) (mips := mips) (x := x) (hdr := hdr) hhl hb
        rw [← hout'] at hA
        exact ⟨by simp, by rw [length_symtabShndxBytes, hwl]; rfl, hA⟩)
      (by
        intro hn
        have hb := needSymtab_eq o x.U hn
        refine ⟨⟨nmOf x.T nShndx, 18, 0, 0, up (L3 o c) 4, num o * 4, symtabIndex o, 0, 4, 4⟩, ?_, rfl, rfl⟩
        have := hget 1
        rw [hts]
        apply List.mem_of_getElem? (i := symtabIndex o + 1)
        rw [this]
        unfold tailHdrs
        rw [if_pos hb]
        rfl)
      (by
        intro w hw _
        obtain ⟨s, hs, rfl⟩ := mem_wsyms hw
        show shndxOf s ≠ _
        unfold shndxOf
        split <;> decide)
    rw [hc]
    refine ⟨_, tab, ⟨hsec (by omega) g, htab, ?_, rfl, by rw [htl1, hwl]; omega, ?_⟩⟩
    · intro hno
      unfold SectionTable.symbols
      have hfind : t.sections.zipIdx.find? (fun p => p.1.type == 2) = some
          (⟨nmOf x.T nSymtab, 2, 0, 0, up (L2 o c) c.w, num o * c.symSize, strtabIndex o (needB o), 1 + nLocal o, c.w, c.symSize⟩, symtabIndex o) := by
        rw [List.find?_eq_some_iff_getElem]
        have gl := length_of_getElem? g
        rw [← hts] at g gl
        refine ⟨rfl, symtabIndex o, by simpa using gl, ?_, ?_⟩
        · rw [List.getElem_zipIdx]
          have := (List.getElem?_eq_some_iff.1 g).2
          rw [this, Nat.zero_add]
        · intro j hj
          rw [List.getElem_zipIdx]
          simp only [Bool.not_eq_true', beq_eq_false_iff_ne, ne_eq]
          have hjl : j < t.sections.length := by omega
          have hgj : (null :: allHdrs o c r x)[j]? = some t.sections[j] := by rw [← hts]; exact List.getElem?_eq_getElem hjl
          generalize t.sections[j] = hj0 at hgj
          cases j with
          | zero =>
            simp only [List.getElem?_cons_zero, Option.some.injEq] at hgj
            subst hgj
            omega
          | succ j =>
            rw [List.getElem?_cons_succ] at hgj
            unfold allHdrs at hgj
            rw [← List.append_assoc, List.getElem?_append_left (by rw [List.length_append, length_comdatHdrs, length_secHdrs]; omega)] at hgj
            rcases List.mem_append.1 (List.mem_of_getElem? hgj) with hh | hh
            · have := mem_comdatHdrs_type _ _ _ _ _ _ hh; omega
            · rcases mem_secHdrs_link _ _ _ _ _ _ _ _ _ hh with ⟨-, s, hs, h1⟩ | h1
              · intro h2
                cases hq : sectionFlags s with
                | none => exact hsecf s hs hq
                | some p =>
                  rw [hq] at h1
                  refine hno s hs p.2 ?_
                  rw [hq]
                  have : p.1 = 2 := by rw [← h2, h1]; rfl
                  rw [← this]
              · rw [h1]; split <;> omega
      rw [hfind]
      simp only
      have := htab
      unfold SectionTable.symbolTableByIndex at this
      rw [hsec (by omega) g] at this
      simp only [Res.bind_eq, Res.ok_bind] at this
      rw [if_pos (by simp)] at this
      exact this
    · intro i s his
      have hmem : s ∈ o.symbols := List.mem_of_getElem? his
      have hil := length_of_getElem? his
      have hp := (symIndex_pos o hil).1
      obtain ⟨y, hy1, hy2, hy3, hy4, hy5, hy6, hy7, hy8⟩ := hts2 (symIndex o i - 1) _ (wsyms_get o x.U his)
      rw [show symIndex o i - 1 + 1 = symIndex o i by omega] at hy1 hy8
      refine ⟨y, ⟨hy1, ?_, ?_, hy5, hy6, ?_, ?_⟩⟩
      · rw [(Props.C42_names out hlen64 _).2, hts1]
        have hyn : y.name = symName x.U s := hy2
        have hse : StringAt x.data (storedName s) (symName x.U s) := by
          unfold symName storedName
          cases hn : hasName s with
          | true =>
            have hns := hn
            unfold hasName at hns
            simp only [Bool.and_eq_true, bne_iff_ne, ne_eq, Bool.not_eq_true', List.isEmpty_eq_false_iff] at hns
            rw [if_neg hns.1]
            exact (nmOf_spec hx.wu (by rw [hx.u]; exact symName_mem o s hmem hn)).2.2
          | false =>
            have : (if s.kind = .sectionSym then [] else s.name) = [] := by
              unfold hasName at hn
              by_cases hks : s.kind = .sectionSym
              · rw [if_pos hks]
              · rw [if_neg hks]
                simpa [hks] using hn
            rw [this]
            exact hx.wu.nul
        obtain ⟨q1, q2⟩ := at_string hAt hse
        exact ⟨_, _, rfl, by omega, by rw [hyn]; omega, by rw [hyn]; exact q1, hv.symbolName s hmem⟩
      · cases hq : symbolFlags s with
        | none => exact absurd hq (hsymf s hmem)
        | some p =>
          have h3 : y.info = ((symbolFlags s).getD (0, 0)).1 := hy3
          have h4 : y.other = ((symbolFlags s).getD (0, 0)).2 := hy4
          rw [h3, h4, hq]; rfl
      · intro j hj
        rw [hy8]
        have : (wsymOf o x.U s).sec = some (secIndex o j) := by show symSec o s = _; unfold symSec; rw [hj]
        unfold wsymSection
        rw [this]
        simp only
        rw [if_neg (by rw [secIndex_eq]; omega)]
      · intro hno
        have hsn : symSec o s = none := by
          unfold symSec
          split
          · rename_i j hj; exact absurd hj (hno j)
          · rfl
        have h1 : (wsymOf o x.U s).sec = none := hsn
        refine ⟨?_, ?_⟩
        · rw [hy8]
          unfold wsymSection
          rw [h1]
          have h2 : (wsymOf o x.U s).shndx = shndxOf s := rfl
          simp only [h2]
          rw [if_neg (by unfold shndxOf; split <;> omega)]
        · rw [hy7 h1]
          show shndxOf s = _
          unfold shndxOf
          cases hq : s.section_ with
          | inSec j => exact absurd hq (hno j)
          | none => rfl
          | undefined => rfl
          | absolute => rfl
          | common => rfl
  · -- groups
    intro i d hd
    have hmem : d ∈ o.comdats := List.mem_of_getElem? hd
    have g := get_comdat (o := o) (c := c) (r := r) (x := x) (null := null) hd
    have hA := at_comdat (o := o) (c := c) (r := r) (mips := mips) (x := x) (hdr := hdr) hhl hd
    rw [← hout'] at hA
    rw [hc]
    obtain ⟨q1, q2⟩ := Props.C49_comdat_round_trip c t out hlen64 (d.sections.map (secIndex o))
      (by
        intro k hk
        obtain ⟨j, _, rfl⟩ := List.mem_map.1 hk
        have := secIndex_lt o (j := j)
        omega)
      ⟨nmOf x.T nGroup, 17, 0, 0, up (endOf c.ehdrSize (comdatSizes (o.comdats.take i))) 4,
        (d.sections.length + 1) * 4, symtabIndex o, ((finalIx o)[d.symbol]?).getD 0, 4, 4⟩
      (by
        rw [hts]
        apply List.mem_of_getElem? (i := i)
        rw [List.getElem?_drop]
        exact g)
      rfl ⟨by simp, by rw [length_comdatBytes, List.length_map], hA⟩
    refine ⟨_, ⟨hsec (by omega) g, ?_, ⟨rfl, ?_⟩, q1, q2⟩⟩
    · rw [e_group]
      exact hname (group_shNames hmem) rfl
    · rw [finalIx_get o _ (hv.comdatSymbol d hmem)]; rfl
  · -- types
    intro k h hk
    rw [hts] at hk
    have hsi : 1 + o.comdats.length ≤ symtabIndex o := by rw [symtabIndex_eq]; omega
    by_cases k0 : k = 0
    · subst k0
      simp only [List.getElem?_cons_zero, Option.some.injEq] at hk
      subst hk
      exact .inl ⟨rfl, hnull⟩
    by_cases k1 : k < 1 + o.comdats.length
    · right; left
      refine ⟨k - 1, by omega, by omega, ?_⟩
      have hd : o.comdats[k - 1]? = some o.comdats[k - 1] := List.getElem?_eq_getElem (by omega)
      have := get_comdat (o := o) (c := c) (r := r) (x := x) (null := null) hd
      rw [show 1 + (k - 1) = k by omega, hk] at this
      injection this with this
      rw [this]
    by_cases k2 : k < symtabIndex o
    · right; right; left
      obtain ⟨i, s, h1, h2⟩ := secIndex_cover o k (by omega) k2
      refine ⟨i, s, h1, ?_⟩
      rcases h2 with h2 | ⟨h2, h3⟩
      · exact .inl h2
      · refine .inr ⟨h2, h3, ?_⟩
        have := (get_section (o := o) (c := c) (r := r) (x := x) (null := null) h1).2 h3
        rw [← h2, hk] at this
        injection this with this
        rw [this]; rfl
    right; right; right
    have := hget (k - symtabIndex o)
    rw [show symtabIndex o + (k - symtabIndex o) = k by omega, hk] at this
    generalize hj : k - symtabIndex o = j at this
    unfold tailHdrs at this
    cases j with
    | zero =>
      left
      simp only [List.cons_append, List.getElem?_cons_zero, Option.some.injEq] at this
      subst this
      exact ⟨by omega, rfl⟩
    | succ j =>
      right
      refine ⟨by omega, ?_⟩
      simp only [List.cons_append, List.nil_append, List.getElem?_cons_succ] at this
      have hm := List.mem_of_getElem? this.symm
      rcases List.mem_append.1 hm with hm | hm
      · split at hm
        · simp only [List.mem_singleton] at hm; subst hm; exact .inr rfl
        · simp at hm
      · simp only [List.mem_cons, List.not_mem_nil, or_false] at hm
        rcases hm with rfl | rfl <;> exact .inl rfl

end Obj.ElfW
