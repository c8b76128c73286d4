import Verif.Proof.MachoFile4
import Verif.Props.FileKind
import Verif.Props.Bytes
import Verif.Props.Rich

/-! # C86: reading Mach-O files -/

namespace Obj.Props
open Obj Obj.MachoR Obj.MachoF Obj.Spec.MachoF
open Obj.Spec (At Magic)

/-- C86: for any bytes (below 2^63), parsing a Mach-O file of the given width succeeds exactly if the bytes are laid out as one, and
everything that is then available is what the format puts at the place; nothing panics. -/
theorem C86_parse (is64 : Bool) (data : List UInt8) (hlen : data.length < 2 ^ 63) :
    (∀ f, File.parse is64 data = .ok f ↔ Image is64 data f) ∧ File.parse is64 data ≠ .panic :=
  ⟨parse_image is64 data hlen, parse_no_panic is64 data hlen⟩

/-- C86: the load commands of a file are determined by its bytes: there is exactly one list of them. -/
theorem C86_commands (c : Cfg) (h : Mhdr) (data : List UInt8) (hlen : data.length < 2 ^ 63) :
    ∃ cmds, CommandsOf c h data cmds ∧ ∀ other, CommandsOf c h data other → other = cmds := by
  rcases commands_run c h data hlen with ⟨cs, cmds, e, g1, g2, g3, -⟩ | ⟨g1, g2, -⟩
  · exact ⟨cmds, g3, fun o ho => commandsOf_unique ho g3⟩
  · exact ⟨[], g2, fun o ho => commandsOf_unique ho g2⟩

private theorem num_at {en : Endianness} {data : List UInt8} {o w v : Nat} (hi : o + w ≤ data.length) (h : num en data o w = v) : At data o (wr en w v) := by
  unfold At
  rw [length_wr, ← h]
  have := wr_rd en (slice data o w)
  rw [length_slice_of (Or.inr hi)] at this
  exact this.symm

/-- C86: a file that parses is detected as the corresponding file kind; no file parses with both widths. -/
theorem C86_kind (is64 : Bool) (data : List UInt8) (hlen : data.length < 2 ^ 63) (f : File) (h : File.parse is64 data = .ok f) :
    FileKind.parseAt data 0 = .ok (if is64 then .machO64 else .machO32) ∧ File.parse (!is64) data = .err := by
  have hf := (parse_image is64 data hlen f).1 h
  have hk : ∀ w g, Image w data g → FileKind.parseAt data 0 = .ok (if w then .machO64 else .machO32) := by
    intro w g hg
    have hs := hg.size
    have h28 : 28 ≤ headerSize w := by unfold headerSize; split <;> omega
    rw [C41_exact]
    refine ⟨by omega, ?_⟩
    have hm := num_at (by omega) hg.magic
    cases w <;> cases he : g.cfg.en <;> rw [he] at hm
    · exact Or.inr hm
    · exact Or.inl hm
    · exact Or.inr hm
    · exact Or.inl hm
  refine ⟨hk _ _ hf, ?_⟩
  cases hp : File.parse (!is64) data with
  | err => rfl
  | panic => exact absurd hp (parse_no_panic _ _ hlen)
  | ok g =>
    exfalso
    have h1 := hk _ _ hf
    rw [hk _ _ ((parse_image _ data hlen g).1 hp)] at h1
    cases is64 <;> simp at h1

/-- C86: sections whose headers only have the low 32 bits of their offsets are found where they are, if they are placed in the segment in
order, with less than 4 GB between them. -/
theorem C86_offsets (g : Seg) (hg : g.fileoff + g.filesize < 2 ^ 64) (ss : List Sect) (hs : ∀ s ∈ ss, s.offset < 2 ^ 32) (os : List Nat)
    (h : Placed (g.fileoff + g.filesize) g.fileoff ss os) : g.sectionOffsets ss = .ok os :=
  (offsetsOf_iff g (by omega) ss hs os).2 (placed_iff g hg ss os h)

/-- C86: architecture, sub-architecture (`CPU_SUBTYPE_ARM64E`, without the capability bits) and kind of file are given by the header. -/
theorem C86_header (h : Mhdr) :
    (∀ a, (h.cputype, a) ∈ cpuTable → architecture h = a) ∧ ((∀ a, (h.cputype, a) ∉ cpuTable) → architecture h = .unknown) ∧
    subArchitecture h = (if h.cputype = 0x100000c ∧ h.cpusubtype % 2 ^ 24 = 2 then some .arm64E else none) ∧
    (∀ k, (h.filetype, k) ∈ fileKinds → kind h = k) ∧ ((∀ k, (h.filetype, k) ∉ fileKinds) → kind h = .unknown) := by
  refine ⟨?_, ?_, ?_, ?_, ?_⟩
  · intro a ha
    simp only [cpuTable, List.mem_cons, List.not_mem_nil, or_false, Prod.mk.injEq] at ha
    unfold architecture
    rcases ha with ⟨e, rfl⟩ | ⟨e, rfl⟩ | ⟨e, rfl⟩ | ⟨e, rfl⟩ | ⟨e, rfl⟩ | ⟨e, rfl⟩ | ⟨e, rfl⟩ | ⟨e, rfl⟩ <;> rw [e] <;> decide
  · intro hn
    simp only [cpuTable, List.mem_cons, List.not_mem_nil, or_false, Prod.mk.injEq, not_or] at hn
    unfold architecture
    have n1 : h.cputype ≠ 12 := fun e => (hn .arm).1 ⟨e, rfl⟩
    have n2 : h.cputype ≠ 0x100000c := fun e => (hn .aarch64).2.1 ⟨e, rfl⟩
    have n3 : h.cputype ≠ 0x200000c := fun e => (hn .aarch64_Ilp32).2.2.1 ⟨e, rfl⟩
    have n4 : h.cputype ≠ 7 := fun e => (hn .i386).2.2.2.1 ⟨e, rfl⟩
    have n5 : h.cputype ≠ 0x1000007 := fun e => (hn .x86_64).2.2.2.2.1 ⟨e, rfl⟩
    have n6 : h.cputype ≠ 8 := fun e => (hn .mips).2.2.2.2.2.1 ⟨e, rfl⟩
    have n7 : h.cputype ≠ 18 := fun e => (hn .powerPc).2.2.2.2.2.2.1 ⟨e, rfl⟩
    have n8 : h.cputype ≠ 0x1000012 := fun e => (hn .powerPc64).2.2.2.2.2.2.2 ⟨e, rfl⟩
    rw [if_neg n1, if_neg n2, if_neg n3, if_neg n4, if_neg n5, if_neg n6, if_neg n7, if_neg n8]
  · unfold subArchitecture
    rw [show (0xffffff : Nat) = 2 ^ 24 - 1 from rfl, Nat.and_two_pow_sub_one_eq_mod]
  · intro k hk
    simp only [fileKinds, List.mem_cons, List.not_mem_nil, or_false, Prod.mk.injEq] at hk
    unfold kind
    rcases hk with ⟨e, rfl⟩ | ⟨e, rfl⟩ | ⟨e, rfl⟩ | ⟨e, rfl⟩ <;> rw [e] <;> decide
  · intro hn
    simp only [fileKinds, List.mem_cons, List.not_mem_nil, or_false, Prod.mk.injEq, not_or] at hn
    unfold kind
    rw [if_neg (fun e => (hn .relocatable).1 ⟨e, rfl⟩), if_neg (fun e => (hn .executable).2.1 ⟨e, rfl⟩), if_neg (fun e => (hn .core).2.2.1 ⟨e, rfl⟩),
      if_neg (fun e => (hn .dynamic).2.2.2 ⟨e, rfl⟩)]

/-- C86: sections are numbered from 1; by name, the first section is found whose name stands for the given one; debug symbols are reported
exactly if there is a section for `.debug_info`. -/
theorem C86_sections (f : File) :
    (∀ i s, sectionByIndex f i = .ok s ↔ 0 < i ∧ f.sections[i - 1]? = some s) ∧ (∀ i, sectionByIndex f i ≠ .panic) ∧
    (∀ query s, sectionByName f query = some s ↔ FirstOf (SectionFor query) f.sections s) ∧
    (∀ query, sectionByName f query = none ↔ ∀ s ∈ f.sections, ¬ SectionFor query s) ∧
    (hasDebugSymbols f = true ↔ ∃ s ∈ f.sections, SectionFor (ascii ".debug_info") s) := by
  have hnone : ∀ query, sectionByName f query = none ↔ ∀ s ∈ f.sections, ¬ SectionFor query s := by
    intro query
    unfold sectionByName
    rw [List.find?_eq_none]
    simp only [sectionFor_iff]
  refine ⟨?_, ?_, fun query s => find_iff _ _ (sectionFor_iff query) _ _, hnone, ?_⟩
  · intro i s
    unfold sectionByIndex
    split
    · simp [*]
    · cases hg : f.sections[i - 1]? with
      | none => simp
      | some t => simp; omega
  · intro i
    unfold sectionByIndex
    split
    · simp
    · split <;> simp
  · unfold hasDebugSymbols
    rw [show ([46, 100, 101, 98, 117, 103, 95, 105, 110, 102, 111] : List UInt8) = ascii ".debug_info" by decide +kernel]
    have := hnone (ascii ".debug_info")
    cases hs : sectionByName f (ascii ".debug_info") with
    | none =>
      simp only [Option.isSome_none, Bool.false_eq_true, false_iff]
      rintro ⟨s, h1, h2⟩
      exact this.1 hs s h1 h2
    | some s =>
      simp only [Option.isSome_some, true_iff]
      obtain ⟨pre, post, h1, h2, -⟩ := (find_iff _ _ (sectionFor_iff _) _ _).1 hs
      exact ⟨s, by rw [h1]; simp, h2⟩

/-- C86: the identifier of a file is that of the first complete `LC_UUID` command; there is none exactly if all load commands that the
header announces are there and none of them has one.  Nothing panics. -/
theorem C86_uuid (f : File) (data : List UInt8) (hlen : data.length < 2 ^ 63) (cmds : List (List UInt8)) (hc : CommandsOf f.cfg f.header data cmds) :
    (∀ u, machUuid f data = .ok (some u) ↔ ∃ b, FirstOf (UuidIn f.cfg.en) cmds b ∧ u = slice b 8 16) ∧
    (machUuid f data = .ok none ↔ (∀ b ∈ cmds, ¬ UuidIn f.cfg.en b) ∧ cmds.length = f.header.ncmds ∧
      (f.header.sizeofcmds = 0 ∨ headerSize f.cfg.is64 + f.header.sizeofcmds ≤ data.length)) ∧
    machUuid f data ≠ .panic := by
  unfold machUuid
  rcases commands_run f.cfg f.header data hlen with ⟨cs, cmds', e, g1, g2, g3, g4, g5, g6, g7⟩ | ⟨g1, g2, g3⟩
  · have := commandsOf_unique g3 hc
    subst this
    rw [g1, Res.ok_bind]
    obtain ⟨h1, h2, h3⟩ := uuidLoop_iff _ g5 g6 _ rfl
    refine ⟨h1, ?_, h3⟩
    rw [h2, g7]
    simp [g4]
  · have := commandsOf_unique g2 hc
    subst this
    rw [g1, Res.err_bind]
    refine ⟨fun u => ?_, ?_, by simp⟩
    · simp only [reduceCtorEq, false_iff]
      rintro ⟨b, hb, -⟩
      exact firstOf_nil hb
    · simp only [reduceCtorEq, false_iff]
      rintro ⟨-, -, h⟩
      exact g3 h

/-- C86: the build version of a file is that of the first `LC_BUILD_VERSION` command (an incomplete one is an error); there is none exactly
if all load commands that the header announces are there and none of them is one.  Nothing panics. -/
theorem C86_build_version (f : File) (data : List UInt8) (hlen : data.length < 2 ^ 63) (cmds : List (List UInt8))
    (hc : CommandsOf f.cfg f.header data cmds) :
    (∀ v, MachoF.buildVersion f data = .ok (some v) ↔ ∃ b, FirstOf (IsBuildVersion f.cfg.en) cmds b ∧ BuildVersionIn f.cfg.en b v) ∧
    (MachoF.buildVersion f data = .ok none ↔ (∀ b ∈ cmds, ¬ IsBuildVersion f.cfg.en b) ∧ cmds.length = f.header.ncmds ∧
      (f.header.sizeofcmds = 0 ∨ headerSize f.cfg.is64 + f.header.sizeofcmds ≤ data.length)) ∧
    MachoF.buildVersion f data ≠ .panic := by
  unfold MachoF.buildVersion
  rcases commands_run f.cfg f.header data hlen with ⟨cs, cmds', e, g1, g2, g3, g4, g5, g6, g7⟩ | ⟨g1, g2, g3⟩
  · have := commandsOf_unique g3 hc
    subst this
    rw [g1, Res.ok_bind]
    obtain ⟨h1, h2, h3⟩ := buildVersionLoop_iff _ g5 g6 _ rfl
    refine ⟨h1, ?_, h3⟩
    rw [h2, g7]
    simp [g4]
  · have := commandsOf_unique g2 hc
    subst this
    rw [g1, Res.err_bind]
    refine ⟨fun u => ?_, ?_, by simp⟩
    · simp only [reduceCtorEq, false_iff]
      rintro ⟨b, hb, -⟩
      exact firstOf_nil hb
    · simp only [reduceCtorEq, false_iff]
      rintro ⟨-, -, h⟩
      exact g3 h

/-- C86: the entry point of a file is that of the first load command that has one, and 0 if there is none. -/
theorem C86_entry (f : File) (data : List UInt8) (hlen : data.length < 2 ^ 63) (cmds : List (List UInt8)) (hc : CommandsOf f.cfg f.header data cmds) :
    (∃ b, FirstOf (fun b => ∃ a, EntryIn f.cfg.en f.header.cputype b a) cmds b ∧ EntryIn f.cfg.en f.header.cputype b (entryAddr f data)) ∨
    ((∀ b ∈ cmds, ∀ a, ¬ EntryIn f.cfg.en f.header.cputype b a) ∧ entryAddr f data = 0) := by
  unfold entryAddr
  rcases commands_run f.cfg f.header data hlen with ⟨cs, cmds', e, g1, g2, g3, g4, g5, g6, g7⟩ | ⟨g1, g2, g3⟩
  · have := commandsOf_unique g3 hc
    subst this
    rw [g1]
    exact entryLoop_iff _ _ g5 _ rfl
  · have := commandsOf_unique g2 hc
    subst this
    rw [g1]
    exact .inr ⟨by simp, rfl⟩

/-- C86: the data of a segment is the part of the file, or an error if it is not inside of it; a range of addresses is the part of it that
is at these addresses; the permissions are the bits of the maximum protection. -/
theorem C86_segments (s : Seg) (data : List UInt8) :
    (∀ d, segData s data = .ok d ↔ (s.filesize = 0 ∨ s.fileoff + s.filesize ≤ data.length) ∧ d = slice data s.fileoff s.filesize) ∧
    segData s data ≠ .panic ∧
    (∀ address size r, segDataRange s data address size = .ok (some r) ↔ ∃ d, segData s data = .ok d ∧ s.vmaddr ≤ address ∧
      address - s.vmaddr + size ≤ d.length ∧ r = slice d (address - s.vmaddr) size) ∧
    segPermissions s = (s.maxprot.testBit 0, s.maxprot.testBit 1, s.maxprot.testBit 2) := by
  refine ⟨?_, readRef_readBytesAt_no_panic _ _ _, ?_, ?_⟩
  · intro d
    unfold segData
    rw [readRef_readBytesAt_eq]
    split
    · simp [*, eq_comm]
    · simp [*]
  · intro address size r
    unfold segDataRange
    rw [Res.bind_eq_ok]
    constructor
    · rintro ⟨d, h1, h2⟩
      simp only [Res.ok.injEq] at h2
      exact ⟨d, h1, (C05_data_range ..).1 h2⟩
    · rintro ⟨d, h1, h2⟩
      exact ⟨d, h1, by rw [(C05_data_range ..).2 h2]⟩
  · unfold segPermissions
    have t0 := testBit_and s.maxprot 0
    have t1 := testBit_and s.maxprot 1
    have t2 := testBit_and s.maxprot 2
    simp only [Nat.reducePow] at t0 t1 t2
    simp only [t0, t1, t2, Bool.decide_eq_true]

/-- C86: the data of a section is the part of the file, and empty for `S_ZEROFILL` and the like; a range of addresses is the part of it at
these addresses; data that is compressed in the GNU style is in `__zdebug_` sections. -/
theorem C86_section_data (utf8 : List UInt8 → Bool) (s : SecInt) (data : List UInt8) (hlen : data.length < 2 ^ 64) :
    (∀ r, fileRange s = some r ↔ ¬ Zerofill s.sect ∧ r = (s.offset, s.sect.size)) ∧
    (∀ d, s.data data = .ok d ↔ (Zerofill s.sect ∧ d = []) ∨
      (¬ Zerofill s.sect ∧ (s.sect.size = 0 ∨ s.offset + s.sect.size ≤ data.length) ∧ d = slice data s.offset s.sect.size)) ∧
    s.data data ≠ .panic ∧
    (∀ address size r, secDataRange s data address size = .ok (some r) ↔ ∃ d, s.data data = .ok d ∧ s.sect.addr ≤ address ∧
      address - s.sect.addr + size ≤ d.length ∧ r = slice d (address - s.sect.addr) size) ∧
    (∀ name, HasName s.sect.sectname name → ¬ (utf8 name = true ∧ name.take 9 = ascii "__zdebug_") →
      compressedFileRange utf8 s data = .ok (CompressedFileRange.ofRange (fileRange s))) ∧
    (∀ name, HasName s.sect.sectname name → utf8 name = true → name.take 9 = ascii "__zdebug_" → ∀ r, compressedFileRange utf8 s data = .ok r ↔
      ¬ Zerofill s.sect ∧ s.offset + 12 ≤ data.length ∧ 12 ≤ s.sect.size ∧ At data s.offset (ascii "ZLIB" ++ [0, 0, 0, 0]) ∧
      r = ⟨.zlib, s.offset + 12, s.sect.size - 12, num .big data (s.offset + 8) 4⟩) ∧
    compressedFileRange utf8 s data ≠ .panic := by
  have hz := fileSize_none s.sect
  have hsz := fileSize_some s.sect
  have hrange : ∀ r, fileRange s = some r ↔ ¬ Zerofill s.sect ∧ r = (s.offset, s.sect.size) := by
    intro r
    unfold fileRange
    cases hs : s.sect.fileSize with
    | some n =>
      obtain ⟨h1, rfl⟩ := (hsz n).1 hs
      simp [h1, eq_comm]
    | none => simp [hz.1 hs]
  have hpfx : ([95, 95, 122, 100, 101, 98, 117, 103, 95] : List UInt8) = ascii "__zdebug_" := by decide +kernel
  have hnp : s.data data ≠ .panic := by
    unfold SecInt.data
    split
    · exact readRef_readBytesAt_no_panic _ _ _
    · simp
  refine ⟨hrange, ?_, hnp, ?_, ?_, ?_, ?_⟩
  · intro d
    unfold SecInt.data
    cases hs : s.sect.fileSize with
    | some n =>
      obtain ⟨h1, rfl⟩ := (hsz n).1 hs
      dsimp only
      rw [readRef_readBytesAt_eq]
      split
      · simp [*, eq_comm]
      · simp [*]
    | none => simp [hz.1 hs, eq_comm]
  · intro address size r
    unfold secDataRange
    rw [Res.bind_eq_ok]
    constructor
    · rintro ⟨d, h1, h2⟩
      simp only [Res.ok.injEq] at h2
      exact ⟨d, h1, (C05_data_range ..).1 h2⟩
    · rintro ⟨d, h1, h2⟩
      exact ⟨d, h1, by rw [(C05_data_range ..).2 h2]⟩
  · intro name hn hc
    rw [hasName_iff] at hn
    unfold compressedFileRange maybeCompressedGnu
    dsimp only
    rw [hpfx, hn, if_pos hc, Res.ok_bind]
  · intro name hn hu hp r
    rw [hasName_iff] at hn
    unfold compressedFileRange maybeCompressedGnu
    dsimp only
    rw [hpfx, hn, if_neg (by simp [hu, hp])]
    have hg := (C39_gnu_compressed_range data s.offset s.sect.size hlen).2
    rw [show "ZLIB".toUTF8.toList = ascii "ZLIB" by decide +kernel] at hg
    cases hs : fileRange s with
    | none =>
      have : Zerofill s.sect := Classical.byContradiction fun h => by rw [(hrange _).2 ⟨h, rfl⟩] at hs; simp at hs
      simp [this]
    | some q =>
      obtain ⟨h1, rfl⟩ := (hrange _).1 hs
      dsimp only
      constructor
      · intro h
        obtain ⟨x, g1, g2⟩ := (Res.bind_eq_ok ..).1 h
        obtain ⟨y, g3, g4⟩ := (Res.bind_eq_ok ..).1 g1
        simp only [Res.ok.injEq] at g4
        subst g4
        simp only [Res.ok.injEq] at g2
        subst g2
        exact ⟨h1, (hg _).1 g3⟩
      · rintro ⟨-, h2⟩
        rw [(hg r).2 h2]
        rfl
  · unfold compressedFileRange maybeCompressedGnu
    refine Res.bind_no_panic ?_ fun r _ => by split <;> simp
    dsimp only
    split
    · simp
    · split
      · simp
      · exact Res.bind_no_panic (C39_gnu_compressed_range _ _ _ hlen).1 fun _ _ => by simp

/-- C86: the indirect symbols of a section are the part of the table with one for each pointer or stub; the table is an array of words in
the file, whose place is given by the `LC_DYSYMTAB` command. -/
theorem C86_indirect (c : Cfg) (s : Sect) (table : List Nat) (o : Nat) (b data : List UInt8) (hb : num c.en b 0 4 = 0xb) :
    (∀ x, indirectSymbols c s table = .ok x ↔ IndirectOf c.is64 s table x) ∧
    (symbolStubSize s = if s.flags % 256 = 8 then s.reserved2 else 0) ∧
    ((∃ d, dysymtab c ⟨num c.en b 0 4, o, b⟩ = .ok (some d)) ↔ 80 ≤ b.length) ∧
    ∀ d, dysymtab c ⟨num c.en b 0 4, o, b⟩ = .ok (some d) → ∀ l, indirectTable c d data = .ok l ↔
      (num c.en b 60 4 = 0 ∨ num c.en b 56 4 + 4 * num c.en b 60 4 ≤ data.length) ∧
      l = (List.range (num c.en b 60 4)).map fun i => num c.en data (num c.en b 56 4 + 4 * i) 4 := by
  refine ⟨indirect_iff c s table, ?_, ?_, ?_⟩
  · unfold symbolStubSize; rw [and255]
  · constructor
    · rintro ⟨d, hd⟩
      exact ((dysymtab_iff c o b _ hb).1 hd).1
    · intro h
      exact ⟨_, (dysymtab_iff c o b _ hb).2 ⟨h, rfl⟩⟩
  · intro d hd l
    obtain ⟨-, h2⟩ := (dysymtab_iff c o b _ hb).1 hd
    simp only [Option.some.injEq] at h2
    subst h2
    refine indirectTable_iff c ⟨num c.en b 8 4, num c.en b 12 4, num c.en b 16 4, num c.en b 20 4, num c.en b 24 4, num c.en b 28 4,
      (List.range 12).map fun i => num c.en b (32 + 4 * i) 4⟩ data ?_ l
    exact num_lt c.en b 60 4

/-- C86: the object map of a symbol table that is made of modules has their objects, with the parts of their names, and their symbols in the
order of the addresses (those with the same address in the order of the table). -/
theorem C86_object_map (t : SymTab) (data : List UInt8) (os : List ObjFile) (es : List ObjEntry) (h : Modules (t.name data) 0 t.symbols os es) :
    (objectMap t data).objects = os ∧ (objectMap t data).symbols.Perm es ∧
    (objectMap t data).symbols.Pairwise (fun a b => a.1.address ≤ b.1.address) ∧
    ∀ a, (objectMap t data).symbols.filter (fun e => e.1.address = a) = es.filter (fun e => e.1.address = a) := by
  have hf := modules_fold h [] [] rfl
  simp only [List.nil_append] at hf
  unfold objectMap
  rw [hf]
  dsimp only
  have tr : ∀ a b c : ObjEntry, decide (a.1.address ≤ b.1.address) = true → decide (b.1.address ≤ c.1.address) = true → decide (a.1.address ≤ c.1.address) = true := by
    intro a b c h1 h2; simp at *; omega
  have tot : ∀ a b : ObjEntry, (decide (a.1.address ≤ b.1.address) || decide (b.1.address ≤ a.1.address)) = true := by
    intro a b; simp; omega
  refine ⟨rfl, List.mergeSort_perm _ _, ?_, ?_⟩
  · exact (List.pairwise_mergeSort tr tot es).imp (fun h => by simpa using h)
  · intro a
    have hsub : (es.filter (fun e => e.1.address = a)).Sublist (es.mergeSort fun x y => x.1.address ≤ y.1.address) := by
      apply List.sublist_mergeSort tr tot
      · rw [List.pairwise_iff_forall_sublist]
        intro x y hxy
        have hx : x ∈ es.filter (fun e => e.1.address = a) := hxy.subset (by simp)
        have hy : y ∈ es.filter (fun e => e.1.address = a) := hxy.subset (by simp)
        have hx := (List.mem_filter.1 hx).2
        have hy := (List.mem_filter.1 hy).2
        simp at hx hy ⊢; omega
      · exact List.filter_sublist
    have h1 := hsub.filter (fun e : ObjEntry => decide (e.1.address = a))
    rw [List.filter_filter] at h1
    simp only [Bool.and_self] at h1
    have h2 : ((es.mergeSort fun x y => x.1.address ≤ y.1.address).filter (fun e : ObjEntry => decide (e.1.address = a))).length =
        (es.filter (fun e : ObjEntry => decide (e.1.address = a))).length := ((List.mergeSort_perm _ _).filter _).length_eq
    exact (h1.eq_of_length h2.symm).symm

/-- C86: whatever is in the symbol table, the object of every entry of the object map is one of the map: asking for it does not panic. -/
theorem C86_object_map_total (t : SymTab) (data : List UInt8) : ∀ e ∈ (objectMap t data).symbols, ∃ o ∈ (objectMap t data).objects, (objectMap t data).objectOf e = .ok o := by
  intro e he
  have hok := fold_ok (t.name data) t.symbols ⟨[], [], none, none⟩ ⟨by simp, by simp⟩
  unfold objectMap at he ⊢
  dsimp only at he ⊢
  have hlt := hok.1 e ((List.mergeSort_perm _ _).mem_iff.1 he)
  unfold ObjMap.objectOf
  dsimp only
  rw [List.getElem?_eq_getElem hlt]
  exact ⟨_, List.getElem_mem hlt, rfl⟩

/-- C86: looking up an address in the object map gives a symbol that covers it, of those that start closest before it; nothing is found only
if all symbols are above the address or it is not covered by such a symbol. -/
theorem C86_object_map_lookup (search : List Nat → Nat → SymMap.Search) (hs : Spec.SymMapS.IsBinarySearch search) (t : SymTab) (data : List UInt8)
    (hv : ∀ y ∈ (objectMap t data).symbols, y.1.address < 2 ^ 64) (address : Nat) (ha : address < 2 ^ 64) :
    (∀ e, (objectMap t data).lookup search address = some e → Closest (objectMap t data).symbols address e ∧ Covers e address) ∧
    ((objectMap t data).lookup search address = none → (∀ e ∈ (objectMap t data).symbols, address < e.1.address) ∨
      ∃ e, Closest (objectMap t data).symbols address e ∧ ¬ Covers e address) := by
  have hl := lookup_fst search (objectMap t data) address
  have hmem := lookup_mem search (objectMap t data) address
  have hnew : (objectMap t data).symbols.map (·.1) = SymMap.new ((objectMap t data).symbols.map (·.1)) := by
    unfold SymMap.new
    rw [List.mergeSort_of_pairwise]
    rw [List.pairwise_map]
    unfold objectMap
    dsimp only
    refine List.pairwise_mergeSort ?_ ?_ _
    · intro a b c h1 h2; simp at *; omega
    · intro a b; simp; omega
  generalize objectMap t data = m at *
  have hc := C13_containing search hs (m.symbols.map (·.1)) (by
    intro s hs'
    obtain ⟨y, h1, rfl⟩ := List.mem_map.1 hs'
    exact hv y h1) address ha
  obtain ⟨hb1, hb2⟩ := C13_before search hs (m.symbols.map (·.1)) address
  rw [← hnew] at hc hb1 hb2
  have closest : ∀ x, SymMap.before search (m.symbols.map (·.1)) address = some x → ∀ e ∈ m.symbols, e.1 = x → Closest m.symbols address e := by
    intro x hx e he hex
    obtain ⟨h1, h2, h3⟩ := hb1 x hx
    refine ⟨he, by rw [hex]; exact h2, fun d hd hda => ?_⟩
    rw [hex]
    exact h3 _ (List.mem_map_of_mem hd) hda
  refine ⟨?_, ?_⟩
  · intro e he
    rw [he, Option.map_some] at hl
    obtain ⟨g1, g2, g3⟩ := (hc e.1).1 hl.symm
    exact ⟨closest _ g1 e (hmem e he) rfl, g2, g3⟩
  · intro he
    rw [he, Option.map_none] at hl
    cases hbf : SymMap.before search (m.symbols.map (·.1)) address with
    | none =>
      left
      intro e he
      exact hb2.1 hbf _ (List.mem_map_of_mem he)
    | some x =>
      right
      obtain ⟨h1, h2, -⟩ := hb1 x hbf
      obtain ⟨e, h3, rfl⟩ := List.mem_map.1 h1
      refine ⟨e, closest _ hbf e h3 rfl, ?_⟩
      rintro ⟨g1, g2⟩
      rw [(hc e.1).2 ⟨hbf, g1, g2⟩] at hl
      simp at hl

/-! ## An example -/

/-- A 64-bit executable for ARM64: a segment with the sections `__text` and `__zdebug_str_off`, `LC_SYMTAB` with the symbols of
one module, `LC_UUID`, `LC_MAIN` and an `LC_DYSYMTAB` command that is too short. -/
private def exMacho : List UInt8 :=
  let n32 := wr .little 4
  let n64 := wr .little 8
  let name (s : String) := ascii s ++ List.replicate (16 - s.length) 0
  let sect (n : String) (addr size off flags : Nat) := name n ++ name "__TEXT" ++ n64 addr ++ n64 size ++ [off, 2, 0, 0, flags, 0, 0, 0].flatMap n32
  let sym (strx typ value : Nat) := n32 strx ++ [UInt8.ofNat typ, 1, 0, 0] ++ n64 value
  [0xfeedfacf, 0x100000c, 0x80000002, 2, 5, 320, 0, 0].flatMap n32 ++
  (n32 0x19 ++ n32 232 ++ name "__TEXT" ++ n64 0x4000 ++ n64 0x1000 ++ n64 0 ++ n64 512 ++ [5, 5, 2, 0].flatMap n32 ++
    sect "__text" 0x4160 4 352 0x80000400 ++ sect "__zdebug_str_off" 0x5000 13 356 0) ++
  [2, 24, 372, 5, 452, 12].flatMap n32 ++
  (n32 0x1b ++ n32 24 ++ (List.range 16).map UInt8.ofNat) ++
  (n32 0x80000028 ++ n32 24 ++ n64 0x160 ++ n64 0) ++
  [0xb, 16, 0, 0].flatMap n32 ++
  [1, 2, 3, 4] ++ (ascii "ZLIB" ++ [0, 0, 0, 0, 0, 0, 1, 0, 7]) ++ [0, 0, 0] ++
  sym 0 0x64 0 ++ sym 1 0x66 0 ++ sym 8 0x24 0x4160 ++ sym 0 0x24 4 ++ sym 0 0x64 0 ++
  ([0] ++ ascii "a(b.o)" ++ [0] ++ ascii "_f" ++ [0, 0])

private def exView : Option (File × Option (List UInt8) × Nat × ObjMap) :=
  match File.parse true exMacho with
  | .ok f =>
    match machUuid f exMacho with
    | .ok u => some (f, u, entryAddr f exMacho, objectMap f.symbols exMacho)
    | _ => none
  | _ => none

example : (exView.map fun v => (v.1.sections.map (·.kind), v.2)) = some ([.text, .readOnlyData], some ((List.range 16).map UInt8.ofNat), 0x160,
    ⟨[(⟨0x4160, 4, ascii "_f"⟩, 0)], [⟨ascii "a", some (ascii "b.o")⟩]⟩) := by decide +kernel

example : (exView.map fun v => (architecture v.1.header, (subArchitecture v.1.header).isSome, kind v.1.header, hasDebugSymbols v.1)) =
    some (.aarch64, true, .executable, false) := by decide +kernel

example : ((exView.bind fun v => sectionByName v.1 (ascii ".debug_str_offsets")).map fun s => compressedFileRange (fun _ => true) s exMacho) =
    some (.ok ⟨.zlib, 368, 1, 256⟩) := by decide +kernel

example : ∃ f, Image true exMacho f := by
  cases h : File.parse true exMacho with
  | ok f => exact ⟨f, ((C86_parse true exMacho (by decide +kernel)).1 f).1 h⟩
  | err => exact absurd h (by decide +kernel)
  | panic => exact absurd h (by decide +kernel)

-- sections after 4 GB
example : ({ segname := [], vmaddr := 0, vmsize := 0, fileoff := 0xffffff00, filesize := 0x300, maxprot := 7, initprot := 7, nsects := 2, flags := 0 } : Seg).sectionOffsets
    [⟨[], [], 0, 0x80, 0xffffff80, 0, 0, 0, 0, 0, 0, 0⟩, ⟨[], [], 0, 0x10, 0x100, 0, 0, 0, 0, 0, 0, 0⟩] = .ok [0xffffff80, 0x100000100] := by decide +kernel

-- what is between the first `(` and the `)` at the end of an `N_OSO` name is taken as the member
example : splitName (ascii "d(1)/x.a(m.o)") = ⟨ascii "d", some (ascii "1)/x.a(m.o")⟩ := by decide +kernel

example : indirectSymbols ⟨true, .little⟩ ⟨[], [], 0, 24, 0, 0, 0, 0, 8, 1, 12, 0⟩ [7, 8, 9, 10] = .ok [8, 9] := by decide +kernel

end Obj.Props
