import Verif.Proof.DyldImage
import Verif.Props.MachoFile

/-! # C103: images of the dyld shared cache -/

namespace Obj.Props
open Obj Obj.Dyld Obj.MachoR Obj.MachoF Obj.DyldI Obj.Spec.Dyld Obj.Spec.MachoF Obj.Spec.DyldI

private theorem data_lt {c : Dyld.Cache} (hc : ∀ f ∈ c.files, f.data.length < 2 ^ 63) {a i o : Nat} (h : Located c a i o) :
    (fileData c i).length < 2 ^ 63 := by
  obtain ⟨f, h1, -⟩ := h
  unfold fileData
  rw [h1]
  exact hc f (List.mem_of_getElem? h1)

private theorem part_of_file {c : Dyld.Cache} {cfg : Cfg} {t : Nat} {ys : List (List UInt8)} {ps : List Part} (h : Each (PartOf c cfg t) ys ps) :
    ∀ p ∈ ps, ∃ b o, PartOf c cfg t b p ∧ Located c p.seg.vmaddr p.file o := by
  induction h with
  | nil => simp
  | cons h1 _ ih =>
    intro p hp
    rcases List.mem_cons.1 hp with rfl | hp
    · obtain ⟨o, ho⟩ := h1.located
      exact ⟨_, o, h1, ho⟩
    · exact ih p hp

/-- C103: parsing an image of a dyld shared cache succeeds exactly if the cache has a Mach-O file of the given width at the address of the
image, with every segment in the file of the cache where its address is, and the result is that file; it never panics. -/
theorem C103_parse (is64 : Bool) (c : Dyld.Cache) (info : ImageInfo) (hc : ∀ f ∈ c.files, f.data.length < 2 ^ 63) :
    (∀ f, DyldI.parse is64 c info = .ok f ↔ ImageAt c info.address is64 f) ∧ DyldI.parse is64 c info ≠ .panic := by
  unfold DyldI.parse Cache.imageDataAndOffset
  cases hd : c.dataAndOffset info.address with
  | none =>
    refine ⟨fun f => ⟨fun h => by simp at h, fun h => ?_⟩, by simp⟩
    have := (located_iff ..).2 h.place
    rw [hd] at this
    cases this
  | some q =>
  obtain ⟨i, off⟩ := q
  have hloc := (located_iff ..).1 hd
  have hlen := data_lt hc hloc
  rw [Res.ok_bind]
  dsimp only
  constructor
  · intro f
    rw [Res.bind_eq_ok]
    constructor
    · rintro ⟨⟨cfg, h⟩, h1, h2⟩
      obtain ⟨k1, k2, k3, k4⟩ := (header_iff ..).1 h1
      obtain ⟨cmds, g1, g2⟩ := run_iff c cfg h (fileData c i) off hlen
      dsimp only at h2
      rw [g2, Res.bind_eq_ok] at h2
      obtain ⟨s, h3, h4⟩ := h2
      rw [Res.bind_eq_ok] at h4
      obtain ⟨y, h4, h5⟩ := h4
      injection h5 with h5
      subst h5
      obtain ⟨parts, m1, m2, m3, m4, m5, m6⟩ := (fold_iff ..).1 h3
      refine ⟨hloc, k1, fileData c i, (contents_iff hloc _).2 rfl, k2, k3, k4, cmds, parts, g1, m1, by simpa using m2, by simpa using m3,
        by simpa using m4, m5, ?_⟩
      unfold imageSymbols at h4
      dsimp only
      rcases m4 with ⟨p, m4, m7⟩ | ⟨m4, m7⟩
      · rcases m6 with ⟨b, m6, m8⟩ | ⟨m6, m8⟩
        · rw [m7, m8] at h4
          dsimp only at h4
          obtain ⟨pre, post, e, e1, e2⟩ := m4
          obtain ⟨_, o, -, ho⟩ := part_of_file m1 p (by rw [e]; simp)
          obtain ⟨pre', post', e', e3, -⟩ := id m6
          refine .inl ⟨b, p.file, _, m6, m7, (contents_iff ho _).2 rfl, (symbols_iff cfg _ b (m5 b (by rw [e']; simp) e3) y).1 h4⟩
        · rw [m8] at h4
          simp only [Res.ok.injEq] at h4
          exact .inr ⟨.inl m6, h4.symm⟩
      · rw [m7] at h4
        refine .inr ⟨.inr m7, ?_⟩
        split at h4
        · contradiction
        · simp only [Res.ok.injEq] at h4
          exact h4.symm
    · rintro ⟨h1, h2, d, h3, h4, h5, h6, cmds, parts, h7, h8, h9, h10, h11, h12, h13⟩
      obtain ⟨rfl, rfl⟩ := located_file h1 hloc
      obtain rfl := (contents_iff hloc _).1 h3
      refine ⟨(f.cfg, f.header), (header_iff ..).2 ⟨h2, h4, h5, h6⟩, ?_⟩
      dsimp only
      obtain ⟨cmds', g1, g2⟩ := run_iff c f.cfg f.header (fileData c f.file) f.headerOffset hlen
      obtain rfl := commandsOf_unique h7 g1
      rw [g2, Res.bind_eq_ok]
      rcases h13 with ⟨b, i, d, e1, e2, e3, e4⟩ | ⟨e1, e2⟩
      · refine ⟨⟨f.segments, f.sections, f.linkedit, some (SymtabCmd.decode f.cfg b)⟩,
          (fold_iff ..).2 ⟨parts, h8, by simpa using h9, by simpa using h10, by simpa using h11, h12, .inl ⟨b, e1, rfl⟩⟩, ?_⟩
        rw [Res.bind_eq_ok]
        refine ⟨f.symbols, ?_, rfl⟩
        unfold imageSymbols
        dsimp only
        rw [e2]
        dsimp only
        have hi : fileData c i = d := by
          obtain ⟨x, x1, x2⟩ := e3
          unfold fileData
          rw [x1]
          exact x2
        rw [hi]
        exact (symbols_iff f.cfg _ b e4.1 _).2 e4
      · -- without a symbol table, or without the segment that has it
        have hst : ∃ st, ((∃ b, LastOf (IsSymtab f.cfg.en) cmds b ∧ st = some (SymtabCmd.decode f.cfg b)) ∨
            ((∀ b ∈ cmds, ¬ IsSymtab f.cfg.en b) ∧ st = none)) := by
          by_cases ha : ∀ b ∈ cmds, ¬ IsSymtab f.cfg.en b
          · exact ⟨none, .inr ⟨ha, rfl⟩⟩
          · have : ∀ l : List (List UInt8), (¬ ∀ b ∈ l, ¬ IsSymtab f.cfg.en b) → ∃ b, LastOf (IsSymtab f.cfg.en) l b := by
              intro l
              induction l with
              | nil => simp
              | cons x l ih =>
                intro hl
                by_cases hx : ∀ b ∈ l, ¬ IsSymtab f.cfg.en b
                · refine ⟨x, (lastOf_cons ..).2 (.inr ⟨rfl, ?_, hx⟩)⟩
                  refine Classical.byContradiction fun hn => hl ?_
                  intro b hb
                  rcases List.mem_cons.1 hb with rfl | hb
                  · exact hn
                  · exact hx b hb
                · obtain ⟨b, hb⟩ := ih hx
                  exact ⟨b, (lastOf_cons ..).2 (.inl hb)⟩
            obtain ⟨b, hb⟩ := this cmds ha
            exact ⟨_, .inl ⟨b, hb, rfl⟩⟩
        obtain ⟨st, hst⟩ := hst
        refine ⟨⟨f.segments, f.sections, f.linkedit, st⟩,
          (fold_iff ..).2 ⟨parts, h8, by simpa using h9, by simpa using h10, by simpa using h11, h12, by simpa using hst⟩, ?_⟩
        rw [Res.bind_eq_ok]
        refine ⟨f.symbols, ?_, rfl⟩
        unfold imageSymbols
        dsimp only
        rw [e2]
        rcases e1 with e1 | e1
        · rcases hst with ⟨b, ⟨pre, post, x1, x2, -⟩, -⟩ | ⟨-, rfl⟩
          · exact absurd x2 (e1 b (by rw [x1]; simp))
          · rfl
        · rw [e1]
          cases st <;> rfl
  · refine Res.bind_no_panic ?_ fun q hq => ?_
    · rw [parseHeaderAt_eq]; exact parseHeader_no_panic _ _
    · obtain ⟨cmds, g1, g2⟩ := run_iff c q.1 q.2 (fileData c i) off hlen
      rw [g2]
      refine Res.bind_no_panic (fold_no_panic _ _ _ _ _ _) fun s _ => Res.bind_no_panic ?_ fun _ _ => by simp
      unfold imageSymbols
      split
      · unfold SymtabCmd.symbols
        refine Res.bind_no_panic (readSliceAt_no_panic _ _ _ _) fun _ _ => ?_
        split <;> simp
      · simp

/-- C103: the width of an image is that of the architecture of the cache, and every cache that parses has one of these architectures. -/
theorem C103_object (data : List UInt8) (subs : List (List UInt8)) (c : Dyld.Cache) (h : Cache.parse data subs = .ok c) (info : ImageInfo) :
    (c.arch ∈ [Arch.x86_64, .aarch64] ∧ parseObject c info = DyldI.parse true c info) ∨
      (c.arch ∈ [Arch.i386, .arm, .powerPc] ∧ parseObject c info = DyldI.parse false c info) := by
  obtain ⟨s, hs, -⟩ := ((C92_parse data subs).2 c).1 h |>.magic
  unfold parseObject
  simp only [Spec.Dyld.magics, List.mem_cons, Prod.mk.injEq, List.not_mem_nil, or_false] at hs
  rcases hs with ⟨-, h, -⟩ | ⟨-, h, -⟩ | ⟨-, h, -⟩ | ⟨-, h, -⟩ | ⟨-, h, -⟩ | ⟨-, h, -⟩ | ⟨-, h, -⟩ | ⟨-, h, -⟩ | ⟨-, h, -⟩ | ⟨-, h, -⟩ | ⟨-, h, -⟩ <;>
    rw [h] <;> simp [Arch.addressSize]

/-- C103: the data of the segments and sections of an image is read from the file of the cache that has the segment. -/
theorem C103_data (is64 : Bool) (c : Dyld.Cache) (info : ImageInfo) (hc : ∀ f ∈ c.files, f.data.length < 2 ^ 63) (f : Image)
    (h : DyldI.parse is64 c info = .ok f) :
    (∀ s ∈ f.segments, ∃ o d, Located c s.1.vmaddr s.2 o ∧ Contents c s.2 d ∧ ∀ r, segmentData c s = .ok r ↔
      (s.1.filesize = 0 ∨ s.1.fileoff + s.1.filesize ≤ d.length) ∧ r = slice d s.1.fileoff s.1.filesize) ∧
    (∀ s ∈ f.sections, ∃ g d o, (g, s.2) ∈ f.segments ∧ Located c g.vmaddr s.2 o ∧ Contents c s.2 d ∧ ∀ r, sectionData c s = .ok r ↔
      (Zerofill s.1.sect ∧ r = []) ∨
      (¬ Zerofill s.1.sect ∧ (s.1.sect.size = 0 ∨ s.1.offset + s.1.sect.size ≤ d.length) ∧ r = slice d s.1.offset s.1.sect.size)) := by
  obtain ⟨h1, h2, d, h3, h4, h5, h6, cmds, parts, h7, h8, h9, h10, h11, h12, h13⟩ := ((C103_parse is64 c info hc).1 f).1 h
  constructor
  · intro s hs
    rw [h9, List.mem_map] at hs
    obtain ⟨p, hp, rfl⟩ := hs
    obtain ⟨b, o, -, ho⟩ := part_of_file h8 p hp
    exact ⟨o, _, ho, (contents_iff ho _).2 rfl, (C86_segments p.seg _).1⟩
  · intro s hs
    rw [h10, List.mem_flatMap] at hs
    obtain ⟨p, hp, hs⟩ := hs
    obtain ⟨x, hx, rfl⟩ := List.mem_map.1 hs
    obtain ⟨b, o, -, ho⟩ := part_of_file h8 p hp
    refine ⟨p.seg, _, o, ?_, ho, (contents_iff ho _).2 rfl, (C86_section_data (fun _ => false) x _ ?_).2.1⟩
    · rw [h9]; exact List.mem_map.2 ⟨p, hp, rfl⟩
    · have := data_lt hc ho
      dsimp only
      omega

/-- C103: `compressed_data` of a section that is not compressed gives the part of the file that has the *header* of the image, which is only
the data of the section if the section is in the same file. -/
theorem C103_compressed_data (utf8 : List UInt8 → Bool) (is64 : Bool) (c : Dyld.Cache) (info : ImageInfo) (hc : ∀ f ∈ c.files, f.data.length < 2 ^ 63)
    (f : Image) (h : DyldI.parse is64 c info = .ok f) (s : SecInt × Nat) (hs : s ∈ f.sections) (name : List UInt8)
    (hn : HasName s.1.sect.sectname name) (hz : name.take 9 ≠ ascii "__zdebug_") :
    (∃ d, Contents c f.file d ∧ ∀ r, sectionCompressedData utf8 c f s = .ok r ↔ (Zerofill s.1.sect ∧ r = []) ∨
      (¬ Zerofill s.1.sect ∧ (s.1.sect.size = 0 ∨ s.1.offset + s.1.sect.size ≤ d.length) ∧ r = slice d s.1.offset s.1.sect.size)) ∧
    (s.2 = f.file → sectionCompressedData utf8 c f s = sectionData c s) := by
  obtain ⟨_, _, _, _, ho, _, _⟩ := (C103_data is64 c info hc f h).2 s hs
  have hl := data_lt hc ho
  have hloc := (((C103_parse is64 c info hc).1 f).1 h).place
  have hr := (C86_section_data utf8 s.1 (fileData c s.2) (by omega)).2.2.2.2.1 name hn (fun hh => hz hh.2)
  have hsz := fileSize_some s.1.sect
  have hz0 := fileSize_none s.1.sect
  constructor
  · refine ⟨_, (contents_iff hloc _).2 rfl, fun r => ?_⟩
    unfold sectionCompressedData
    rw [hr, Res.ok_bind]
    unfold fileRange
    cases he : s.1.sect.fileSize with
    | none =>
      simp only [hz0.1 he, true_and, not_true, false_and, or_false, CompressedFileRange.ofRange, CompressedFileRange.data]
      rw [Obj.readRef_readBytesAt_eq]
      simp [slice, eq_comm]
    | some n =>
      obtain ⟨h1, rfl⟩ := (hsz n).1 he
      simp only [h1, not_false_eq_true, true_and, false_and, false_or, CompressedFileRange.ofRange, CompressedFileRange.data]
      rw [Obj.readRef_readBytesAt_eq]
      split
      · simp [*, eq_comm]
      · simp [*]
  · intro e
    unfold sectionCompressedData sectionData SecInt.data
    rw [hr, Res.ok_bind, e]
    unfold fileRange
    cases he : s.1.sect.fileSize with
    | none =>
      simp only [CompressedFileRange.ofRange, CompressedFileRange.data]
      rw [Obj.readRef_readBytesAt_eq]
      simp [slice]
    | some n => rfl

/-- C103: the symbols of an image have their names in the file of the cache that has `__LINKEDIT`: a name is the string there at the offset that
the symbol gives from the start of the strings, up to a NUL inside of the strings, which are in the file; all else is an error. -/
theorem C103_names (is64 : Bool) (c : Dyld.Cache) (info : ImageInfo) (hc : ∀ f ∈ c.files, f.data.length < 2 ^ 63) (f : Image)
    (h : DyldI.parse is64 c info = .ok f) (y : Nlist) (hy : y ∈ f.symbols.symbols) :
    ∃ i d start size, f.linkedit = some i ∧ Contents c i d ∧ f.symbols.strings = some (start, start + size) ∧
      (∀ s, symbolName c f y = .ok s ↔ start + size ≤ d.length ∧ y.strx + s.length < size ∧ (0 : UInt8) ∉ s ∧
        ∃ pre tl, d = pre ++ s ++ 0 :: tl ∧ pre.length = start + y.strx) ∧
      symbolName c f y ≠ .panic := by
  obtain ⟨h1, h2, d, h3, h4, h5, h6, cmds, parts, h7, h8, h9, h10, h11, h12, h13⟩ := ((C103_parse is64 c info hc).1 f).1 h
  rcases h13 with ⟨b, i, d, e1, e2, e3, e4⟩ | ⟨-, e⟩
  rotate_left
  · rw [e] at hy; simp at hy
  obtain ⟨-, -, k1, k2⟩ := e4
  refine ⟨i, d, num f.cfg.en b 16 4, num f.cfg.en b 20 4, e2, e3, k2, ?_⟩
  have hi : fileData c i = d := by
    obtain ⟨x, x1, x2⟩ := e3
    unfold fileData
    rw [x1]
    exact x2
  have hl : d.length < 2 ^ 64 := by
    obtain ⟨x, x1, x2⟩ := e3
    have := hc x (List.mem_of_getElem? x1)
    rw [x2] at this
    omega
  have hb1 := num_lt f.cfg.en b 16 4
  have hb2 := num_lt f.cfg.en b 20 4
  have hyx : y.strx < 2 ^ 32 := by
    rw [k1] at hy
    obtain ⟨n, -, rfl⟩ := List.mem_map.1 hy
    exact num_lt ..
  have hn : symbolName c f y = stringTableGet (some d) (num f.cfg.en b 16 4) (num f.cfg.en b 16 4 + num f.cfg.en b 20 4) y.strx := by
    unfold symbolName SymTab.name Elf.StrTable.get
    rw [e2, k2]
    dsimp only
    rw [hi]
  rw [hn]
  generalize num f.cfg.en b 16 4 = start at *
  generalize num f.cfg.en b 20 4 = size at *
  refine ⟨fun s => ?_, (C06_string_table_get d start (start + size) y.strx [] hl).2⟩
  rw [(C06_string_table_get d start (start + size) y.strx s hl).1]
  constructor
  · rintro ⟨pre, mid, post, e, m1, m2, m3⟩
    have hlen := congrArg List.length e
    simp only [List.length_append, List.length_cons] at hlen m3
    exact ⟨by omega, by omega, m1, pre, mid ++ post, by rw [e]; simp, m2⟩
  · rintro ⟨m1, m2, m3, pre, tl, e, m4⟩
    have hlen := congrArg List.length e
    simp only [List.length_append, List.length_cons] at hlen
    refine ⟨pre, tl.take (size - y.strx - s.length - 1), tl.drop (size - y.strx - s.length - 1), ?_, m3, m4, ?_⟩
    · rw [e]; simp
    · simp only [List.length_append, List.length_cons, List.length_take]
      omega

/-- C103: the identifier, the build version and the entry point of an image are those in its load commands, which are in the file with its
header, after the header. -/
theorem C103_commands (is64 : Bool) (c : Dyld.Cache) (info : ImageInfo) (hc : ∀ f ∈ c.files, f.data.length < 2 ^ 63) (f : Image)
    (h : DyldI.parse is64 c info = .ok f) :
    ∃ d cmds, Located c info.address f.file f.headerOffset ∧ Contents c f.file d ∧ CommandsOf f.cfg f.header (d.drop f.headerOffset) cmds ∧
      (∀ u, imageUuid c f = .ok (some u) ↔ ∃ b, FirstOf (UuidIn f.cfg.en) cmds b ∧ u = slice b 8 16) ∧ imageUuid c f ≠ .panic ∧
      (∀ v, imageBuildVersion c f = .ok (some v) ↔ ∃ b, FirstOf (IsBuildVersion f.cfg.en) cmds b ∧ BuildVersionIn f.cfg.en b v) ∧
      imageBuildVersion c f ≠ .panic ∧
      ((∃ b, FirstOf (fun b => ∃ a, EntryIn f.cfg.en f.header.cputype b a) cmds b ∧ EntryIn f.cfg.en f.header.cputype b (imageEntry c f)) ∨
        ((∀ b ∈ cmds, ∀ a, ¬ EntryIn f.cfg.en f.header.cputype b a) ∧ imageEntry c f = 0)) := by
  obtain ⟨h1, h2, d, h3, h4, h5, h6, cmds, parts, h7, -⟩ := ((C103_parse is64 c info hc).1 f).1 h
  obtain rfl := (contents_iff h1 _).1 h3
  have hl := data_lt hc h1
  have hl' : ((fileData c f.file).drop f.headerOffset).length < 2 ^ 63 := by rw [List.length_drop]; omega
  have hu := C86_uuid ⟨f.cfg, f.header, [], [], ⟨[], none⟩⟩ _ hl' cmds h7
  have hv := C86_build_version ⟨f.cfg, f.header, [], [], ⟨[], none⟩⟩ _ hl' cmds h7
  have he := C86_entry ⟨f.cfg, f.header, [], [], ⟨[], none⟩⟩ _ hl' cmds h7
  refine ⟨_, cmds, h1, h3, h7, ?_⟩
  unfold imageUuid imageBuildVersion imageEntry
  simp only [loadCommandsAt_eq]
  exact ⟨hu.1, hu.2.2, hv.1, hv.2.2, he⟩

private theorem parts_of {c : Dyld.Cache} {cfg : Cfg} {t i : Nat} {ys : List (List UInt8)} {xss : List (List SecInt)} (h : Each (SectionsOf cfg t) ys xss)
    (hl : ∀ b ∈ ys, ∃ o, Located c (segmentIn cfg b).vmaddr i o) :
    ∃ parts, Each (PartOf c cfg t) ys parts ∧ parts.map (fun p => (p.seg, p.file)) = (ys.map (segmentIn cfg)).map (fun g => (g, i)) ∧
      parts.flatMap (fun p => p.sections.map fun s => (s, p.file)) = xss.flatten.map (fun s => (s, i)) ∧ ∀ p ∈ parts, p.file = i := by
  induction h with
  | nil => exact ⟨[], .nil, rfl, rfl, by simp⟩
  | @cons y x ys xs h1 _ ih =>
    obtain ⟨parts, k1, k2, k3, k4⟩ := ih fun b hb => hl b (List.mem_cons_of_mem _ hb)
    refine ⟨⟨segmentIn cfg y, i, x⟩ :: parts, .cons ⟨rfl, hl y List.mem_cons_self, h1⟩ k1, by simp only [List.map_cons, k2],
      by simp only [List.flatMap_cons, k3, List.flatten_cons, List.map_append], ?_⟩
    intro p hp
    rcases List.mem_cons.1 hp with rfl | hp
    · rfl
    · exact k4 p hp

/-- C103: a Mach-O file that is all of one file of the cache, with its segments there, is parsed as it is parsed by itself, if it has a
`__LINKEDIT` segment. -/
theorem C103_single_file (is64 : Bool) (c : Dyld.Cache) (info : ImageInfo) (hc : ∀ f ∈ c.files, f.data.length < 2 ^ 63) (data : List UInt8) (i : Nat)
    (g : File) (h : File.parse is64 data = .ok g) (hi : Located c info.address i 0) (hd : Contents c i data)
    (hs : ∀ s ∈ g.segments, ∃ o, Located c s.vmaddr i o) (hk : ∃ s ∈ g.segments, HasName s.segname (ascii "__LINKEDIT")) :
    DyldI.parse is64 c info = .ok ⟨g.cfg, g.header, i, 0, some i, g.segments.map (fun s => (s, i)), g.sections.map (fun s => (s, i)), g.symbols⟩ := by
  have hl : data.length < 2 ^ 63 := by
    obtain ⟨x, h1, rfl⟩ := hd
    exact hc x (List.mem_of_getElem? h1)
  obtain ⟨h1, h2, h3, h4, cmds, h5, h6, ⟨xss, h7, h8⟩, h9, h10⟩ := ((C86_parse is64 data hl).1 g).1 h
  rw [h6] at hs hk
  obtain ⟨parts, k1, k2, k3, k4⟩ := parts_of (i := i) h7 fun b hb => hs _ (List.mem_map.2 ⟨b, hb, rfl⟩)
  have hlast : ∃ p, LastOf IsLinkedit parts p := by
    obtain ⟨s, m1, m2⟩ := hk
    have : (s, i) ∈ parts.map (fun p => (p.seg, p.file)) := by rw [k2]; exact List.mem_map.2 ⟨s, m1, rfl⟩
    obtain ⟨p, m3, m4⟩ := List.mem_map.1 this
    injection m4 with m4 m5
    have hp : IsLinkedit p := by unfold IsLinkedit; rw [m4]; exact m2
    clear this k1 k2 k3 k4
    induction parts with
    | nil => simp at m3
    | cons x l ih =>
      by_cases hx : ∀ b ∈ l, ¬ IsLinkedit b
      · refine ⟨x, (lastOf_cons ..).2 (.inr ⟨rfl, ?_, hx⟩)⟩
        rcases List.mem_cons.1 m3 with rfl | m3
        · exact hp
        · exact absurd hp (hx p m3)
      · have hx' : ∃ b ∈ l, IsLinkedit b := Classical.byContradiction fun hn => hx fun b hb hb' => hn ⟨b, hb, hb'⟩
        obtain ⟨b, n1, n2⟩ := hx'
        have : ∀ l : List Part, (∃ b ∈ l, IsLinkedit b) → ∃ p, LastOf IsLinkedit l p := by
          intro l
          induction l with
          | nil => simp
          | cons y l ih =>
            rintro ⟨b, hb, hb'⟩
            by_cases hy : ∃ b ∈ l, IsLinkedit b
            · obtain ⟨p, hp⟩ := ih hy
              exact ⟨p, (lastOf_cons ..).2 (.inl hp)⟩
            · refine ⟨y, (lastOf_cons ..).2 (.inr ⟨rfl, ?_, fun z hz hz' => hy ⟨z, hz, hz'⟩⟩)⟩
              rcases List.mem_cons.1 hb with rfl | hb
              · exact hb'
              · exact absurd ⟨b, hb, hb'⟩ hy
        obtain ⟨p, hp⟩ := this l ⟨b, n1, n2⟩
        exact ⟨p, (lastOf_cons ..).2 (.inl hp)⟩
  obtain ⟨p, hp⟩ := hlast
  have hpf : p.file = i := by
    obtain ⟨pre, post, e, -⟩ := id hp
    exact k4 p (by rw [e]; simp)
  refine ((C103_parse is64 c info hc).1 _).2 ⟨hi, h1, data, hd, by simpa using h2, h3, by simpa using h4, cmds, parts, by simpa using h5, k1,
    by rw [k2, h6], by rw [k3, h8], .inl ⟨p, hp, by rw [hpf]⟩, ?_, ?_⟩
  · intro b hb hb'
    obtain ⟨t, ht⟩ := h9 b hb hb'
    exact ht.1
  · rcases h10 with ⟨b, e1, e2⟩ | ⟨e1, e2⟩
    · exact .inl ⟨b, i, data, e1, rfl, hd, e2⟩
    · exact .inr ⟨.inl e1, e2⟩

/-! ## An example: an image with `__TEXT` in the main file and `__DATA` and `__LINKEDIT` in a subcache -/

private def nm (s : String) : List UInt8 := let b := s.toUTF8.toList; b ++ List.replicate (16 - b.length) 0
private def w4 (n : Nat) : List UInt8 := wr .little 4 n
private def w8 (n : Nat) : List UInt8 := wr .little 8 n

private def mainFile : List UInt8 :=
  List.replicate 16 0xff ++
  (w4 0xfeedfacf ++ w4 0x100000c ++ w4 0 ++ w4 6 ++ w4 4 ++ w4 320 ++ w4 0 ++ w4 0) ++
  (w4 0x19 ++ w4 72 ++ nm "__TEXT" ++ w8 0x1000 ++ w8 0x100 ++ w8 0 ++ w8 16 ++ w4 5 ++ w4 5 ++ w4 0 ++ w4 0) ++
  (w4 0x19 ++ w4 152 ++ nm "__DATA" ++ w8 0x8000 ++ w8 0x10 ++ w8 0 ++ w8 4 ++ w4 3 ++ w4 3 ++ w4 1 ++ w4 0) ++
  (nm "__data" ++ nm "__DATA" ++ w8 0x8000 ++ w8 4 ++ w4 0 ++ w4 0 ++ w4 0 ++ w4 0 ++ w4 0 ++ w4 0 ++ w4 0 ++ w4 0) ++
  (w4 0x19 ++ w4 72 ++ nm "__LINKEDIT" ++ w8 0x8010 ++ w8 0x20 ++ w8 16 ++ w8 32 ++ w4 1 ++ w4 1 ++ w4 0 ++ w4 0) ++
  (w4 2 ++ w4 24 ++ w4 16 ++ w4 1 ++ w4 32 ++ w4 4)

private def subFile : List UInt8 :=
  [1, 2, 3, 4] ++ List.replicate 12 0 ++ (w4 1 ++ [0xf, 1] ++ wr .little 2 0 ++ w8 0x8000) ++ [0, 0x5f, 0x61, 0]

private def cache : Dyld.Cache :=
  ⟨.little, mainFile, [⟨mainFile, [⟨0x1000, 0x100, 0, 5, 5, none⟩]⟩, ⟨subFile, [⟨0x8000, 0x30, 0, 3, 3, none⟩]⟩], [⟨0x1010, 0, 0, 0, 0⟩], .aarch64⟩

/-- The image is parsed, its data and the name of its symbol are those of the subcache, but `compressed_data` gives bytes of the main file. -/
example : (match parseObject cache ⟨0x1010, 0, 0, 0, 0⟩ with
    | .ok f => decide (f.file = 0 ∧ f.headerOffset = 16 ∧ f.segments.map (·.2) = [0, 1, 1] ∧ f.linkedit = some 1 ∧
        f.symbols.symbols.map (symbolName cache f) = [.ok [0x5f, 0x61]] ∧
        f.sections.map (sectionData cache) = [.ok [1, 2, 3, 4]] ∧
        f.sections.map (sectionCompressedData (fun _ => true) cache f) = [.ok [0xff, 0xff, 0xff, 0xff]])
    | _ => false) = true := by decide +kernel

example : ∀ f ∈ cache.files, f.data.length < 2 ^ 63 := by decide +kernel

end Obj.Props
