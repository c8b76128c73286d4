import Verif.Proof.MachoW6
import Verif.Props.ElfTables

/-! Reading back what `macho_write` has written: sections, symbols, groups, commands. -/

namespace Obj.MachoW
open Obj Obj.Reserve Obj.Parts Obj.Spec Obj.Spec.MachoO Obj.MachoR
open Obj.ElfW (length_of_getElem? Written nmOf nmOf_spec at_string)

variable {c : Cfg} {o : W.Object} {x : Extra} {t : StrTab} {data : List UInt8} {cpu sub : Nat} {hs : List Sect} {ys : List Nlist}
  {file : List UInt8}

/-! ## Sections -/

theorem relocations_ok (im : Image c o x t data cpu sub hs ys file) (hen : c.en = o.endian) {i : Nat} {s : W.Section} {h : Sect}
    (H : Head c o x file i s h) : h.relocations c file =
      .ok ((recsOf o s).map fun r => ((r.words o.endian).1 % 4294967296, (r.words o.endian).2)) := by
  have hlt : file.length < U64 := by
    rw [im.len]
    have := im.planned.len
    have : U32 < U64 := by decide
    omega
  unfold Sect.relocations
  rw [H.rel.2.1, Elf.readSliceAt_flatMap (RelInfo.bytes o.endian) 8 (recsOf o s) (fun r _ => length_bytes _ r) hlt H.rel.1]
  simp only [Res.ok_bind]
  rw [List.map_map, hen]
  congr 1
  refine List.map_congr_left fun r _ => ?_
  exact words_of_bytes o.endian r

theorem fileSize_iff (h : Sect) : (zeroFill h.flags → h.fileSize = none) ∧ (¬ zeroFill h.flags → h.fileSize = some h.size) := by
  unfold zeroFill Sect.fileSize
  simp only
  rw [mod_two_pow_and]
  exact ⟨fun h => if_pos h, fun h => if_neg h⟩

theorem count_eq (rs : List W.Reloc) :
    W.machoCount rs = (rs.map fun r => 1 + (if r.addend ≠ 0 then 1 else 0) + (if r.subtractor ≠ none then 1 else 0)).sum := by
  unfold W.machoCount
  congr 1
  refine List.map_congr_left fun r _ => ?_
  cases r.subtractor <;> simp

theorem sectionNumber_le (o : W.Object) (i : Nat) : sectionNumber o i ≤ o.sections.length := by
  unfold sectionNumber; split <;> omega

theorem sectionBack (hv : Valid o) (im : Image c o x t data cpu sub hs ys file) (hen : c.en = o.endian) {i : Nat} {s : W.Section} {h : Sect}
    (hi : o.sections[i]? = some s) (H : Head c o x file i s h) :
    SectionBack c o file (orderOf o) (segOf c o x) cpu s (secInt h) := by
  have hmem := List.mem_of_getElem? hi
  have hrel := relocations_ok im hen H
  refine ⟨?_, ?_, H.size, ?_, H.aligned, H.inside, H.flags, rfl, ?_, ?_, ?_, ?_⟩
  · intro h0
    show upToNul h.sectname = _
    rw [H.name, upToNul_pad _ _ h0]
  · intro h0
    show upToNul h.segname = _
    rw [H.segname, upToNul_pad _ _ h0]
  · obtain ⟨k, hk, h1, h2⟩ := H.get
    show h.alignment = _
    unfold Sect.alignment
    rw [h2, if_pos hk, h1]
  · intro hb hz
    obtain ⟨h1, h2, h3⟩ := H.contents hb
    refine ⟨?_, h1, h2⟩
    unfold SecInt.data
    show (match h.fileSize with | some size => ReadRef.readBytesAt file h.offset size | none => .ok []) = _
    rw [(fileSize_iff h).2 hz]
    simp only
    rw [H.size, ← hv.contents s hmem hb]
    by_cases hd : s.data = []
    · rw [hd]
      exact Elf.at_read (b := []) (by unfold At slice; simp)
    · exact Elf.at_read (h3 hd)
  · intro hz
    unfold SecInt.data
    show (match h.fileSize with | some size => ReadRef.readBytesAt file h.offset size | none => .ok []) = _
    rw [(fileSize_iff h).1 hz]
  · refine ⟨_, hrel, ?_⟩
    rw [List.length_map, im.recs.length hmem, ← count_eq]
    rfl
  · intro hl hfit
    have hsy := im.planned.symbols
    have hse := im.planned.sections
    have hst : ∀ r ∈ W.machoOrder s.relocs, ∀ typ pcrel len, r.flags = .macho typ pcrel len →
        MachoSpec.Storable o.arch (indexIn (orderOf o)) (sectionNumber o) r typ len := by
      intro r hr typ pcrel len hf
      have R := hfit r (mem_machoOrder.1 hr)
      obtain ⟨f1, f2, f3, f4⟩ := R.flags typ pcrel len hf
      refine ⟨R.offset, f1, f2, ⟨f3, f4⟩, R.addend, fun i => ?_, fun i => ?_⟩
      · exact indexIn_lt _ i 16777216 (by omega) (by decide)
      · have := sectionNumber_le o i
        omega
    obtain ⟨q1, q2, -⟩ := recordsAll_step o.arch cpu im.mcpu (indexIn (orderOf o)) (sectionNumber o) o.symbols (W.machoOrder s.relocs) hst
      (recsOf o s) (im.recs.all s hmem)
    refine ⟨_, W.machoOrder s.relocs, hrel, Props.C64_order s.relocs, ?_⟩
    have he : ((recsOf o s).map fun r => ((r.words o.endian).1 % 4294967296, (r.words o.endian).2)) = (recsOf o s).map (RelInfo.words .little) := by
      refine List.map_congr_left fun r hr => ?_
      rw [hl]
      have : (r.words .little).1 = r.address := rfl
      rw [this, Nat.mod_eq_of_lt (q2 r hr)]
      rfl
    rw [he]
    exact q1

/-! ## Symbols -/

theorem symbolBack (hv : Valid o) (hf : MachoO.Fits o x) (im : Image c o x t data cpu sub hs ys file) {k i : Nat} {s : W.Symbol}
    (hk : (orderOf o)[k]? = some i) (hi : o.symbols[i]? = some s) :
    ∃ y, (fileOf c o x data cpu sub hs ys).symbols.symbols[k]? = some y ∧
      SymbolBack o file (fileOf c o x data cpu sub hs ys) s y := by
  have hmem := List.mem_of_getElem? hi
  obtain ⟨s', e1, he⟩ := ((order_ok o).members i).1 (List.mem_of_getElem? hk)
  rw [hi] at e1
  simp only [Option.some.injEq] at e1
  subst e1
  obtain ⟨y, y1, y2⟩ := im.syms k i s hk hi
  obtain ⟨n1, n2, n3⟩ := nlist_ok hv hf im hi he y2
  refine ⟨{ y with value := y.value % 256 ^ c.w }, ?_, ?_, y2.flags, n3, ?_⟩
  · show (ys.map fun y => { y with value := y.value % 256 ^ c.w })[k]? = _
    rw [List.getElem?_map, y1]; rfl
  · show Elf.StrTable.get (some (strOff c o x, strOff c o x + data.length)) file y.strx = _
    obtain ⟨a1, a2⟩ := at_string (at_syms im hv).2 n2
    refine ((Props.C42_string_lookup _ _ _ _ ?_).1).2 ⟨_, _, rfl, ?_, by omega, a1, hv.symbolName s hmem⟩
    · rw [im.len]
      have := im.planned.len
      have : U32 < 2 ^ 64 := by decide
      omega
    · rw [im.len]
  · have hval := y2.value
    have hsz := hf.symbolSize s hmem
    have hvl := hv.value s hmem
    have hvm := hv.memory
    have hfs := fileSize_le o
    have key : y.value < 2 ^ 64 ∧ (s.section_ = .common → y.value = s.size) ∧
        (∀ i, s.section_ = .inSec i → ∃ z, (fileOf c o x data cpu sub hs ys).sections[i]? = some z ∧ y.value = z.sect.addr + s.value) ∧
        (s.section_ ≠ .common → (∀ i, s.section_ ≠ .inSec i) → y.value = s.value) := by
      unfold symbolValue at hval
      cases hsec : s.section_ with
      | common =>
        rw [hsec] at hval
        simp only [Res.ok.injEq] at hval
        refine ⟨by omega, fun _ => hval.symm, fun i h => (by cases h), fun h => absurd rfl h⟩
      | inSec j =>
        rw [hsec] at hval
        simp only at hval
        have hj := hv.symbolSection s hmem j hsec
        obtain ⟨h, e1, H⟩ := heads hv im (List.getElem?_eq_getElem hj)
        obtain ⟨p, p1, p2⟩ := H.place
        rw [p1] at hval
        simp only at hval
        have hin := H.inside
        rw [ElfW.addU64_eq (by have : (2 : Nat) ^ 62 + 2 ^ 63 < U64 := by decide
                               omega)] at hval
        simp only [Res.ok.injEq] at hval
        refine ⟨by omega, fun h => (by cases h), fun i hi => ?_, fun _ h => absurd rfl (h j)⟩
        cases hi
        refine ⟨secInt h, ?_, ?_⟩
        · show (hs.map secInt)[j]? = _
          rw [List.getElem?_map, e1]; rfl
        · show _ = h.addr + s.value
          omega
      | none =>
        rw [hsec] at hval
        simp only [Res.ok.injEq] at hval
        exact ⟨by omega, fun h => (by cases h), fun i h => (by cases h), fun _ _ => hval.symm⟩
      | undefined =>
        rw [hsec] at hval
        simp only [Res.ok.injEq] at hval
        exact ⟨by omega, fun h => (by cases h), fun i h => (by cases h), fun _ _ => hval.symm⟩
      | absolute =>
        rw [hsec] at hval
        simp only [Res.ok.injEq] at hval
        exact ⟨by omega, fun h => (by cases h), fun i h => (by cases h), fun _ _ => hval.symm⟩
    refine ⟨y.value, ?_, ?_, key.2⟩
    · intro h64
      have h64 : c.is64 = true := h64
      show y.value % 256 ^ c.w = _
      have : c.w = 8 := by unfold Elf.Cfg.w; rw [h64]; rfl
      rw [this]
      exact Nat.mod_eq_of_lt (Nat.lt_of_lt_of_le key.1 (by decide))
    · intro h32
      show y.value % 256 ^ c.w = _
      exact Nat.mod_eq_of_lt (pow_w4 c (Nat.lt_of_lt_of_le h32 (by decide)))

/-! ## Groups and commands -/

theorem groupsBack (o : W.Object) : GroupsBack o (orderOf o) (dycmdOf o) := by
  refine ⟨?_, ?_, rfl⟩
  · intro k i s hk hi
    have key : ∀ (g : Nat) (l : List Nat) (n : Nat), (∀ i, i ∈ l ↔ ∃ s, o.symbols[i]? = some s ∧ Emitted o s ∧ group s = g) → n ≤ k →
        l[k - n]? = some i → group s = g := by
      intro g l n hm _ hl
      obtain ⟨s', h1, -, h2⟩ := (hm i).1 (List.mem_of_getElem? hl)
      rw [hi] at h1
      simp only [Option.some.injEq] at h1
      subst h1
      exact h2
    have e1 : (dycmdOf o).ilocalsym = 0 := rfl
    have e2 : (dycmdOf o).nlocalsym = (locals o).length := rfl
    have e3 : (dycmdOf o).iextdefsym = (locals o).length := rfl
    have e4 : (dycmdOf o).nextdefsym = (externals o).length := rfl
    have e5 : (dycmdOf o).iundefsym = (locals o).length + (externals o).length := rfl
    have e6 : (dycmdOf o).nundefsym = (undefineds o).length := rfl
    rw [e1, e2, e3, e4, e5, e6]
    have hlen := length_of_getElem? hk
    unfold orderOf at hk hlen
    rw [List.length_append, List.length_append] at hlen
    by_cases h1 : k < (locals o).length
    · rw [List.append_assoc, List.getElem?_append_left h1] at hk
      have := key 0 (locals o) 0 (mem_locals o) (Nat.zero_le _) hk
      omega
    · by_cases h2 : k < (locals o).length + (externals o).length
      · rw [List.getElem?_append_left (by rw [List.length_append]; omega), List.getElem?_append_right (by omega)] at hk
        have := key 1 (externals o) _ (mem_externals o) (by omega) hk
        omega
      · rw [List.getElem?_append_right (by rw [List.length_append]; omega), List.length_append] at hk
        have := key 2 (undefineds o) _ (mem_undefineds o) (by omega) hk
        omega
  · unfold orderOf
    rw [List.length_append, List.length_append]
    rfl

theorem commandsBack (hv : Valid o) (hf : MachoO.Fits o x) (im : Image c o x t data cpu sub hs ys file) :
    CommandsBack c o x (orderOf o) (cmdData c o x data hs) := by
  have K := kinds hv hf im
  have hd : ∀ n, dysymtab c ⟨field c.en ((dycmdOf o).encode c) 0 4, n, (dycmdOf o).encode c⟩ = .ok (some (dycmdOf o)) := by
    intro n
    unfold dysymtab
    rw [if_pos K.dy.1]
    have hl := length_dysymtab c (dycmdOf o) (by rfl)
    have := readAt_all ((dycmdOf o).encode c)
    rw [hl] at this
    simp only
    rw [this]
    simp only [Res.ok_bind]
    rw [K.dy.2]
  unfold cmdData cmdBytes
  cases hx : x.version with
  | none =>
    simp only [List.append_nil, List.singleton_append, dataOf]
    refine ⟨?_, fun v h => (by rw [hx] at h; cases h), ⟨_, .tail _ (.tail _ (.head _)), dycmdOf o, hd _, groupsBack o⟩⟩
    simp only [List.map_cons, List.map_nil]
    rw [K.seg, K.sym, K.dy.1, hx]
    rfl
  | some v =>
    simp only [List.singleton_append, List.cons_append, List.nil_append, dataOf]
    refine ⟨?_, fun v' h => ?_, ⟨_, .tail _ (.tail _ (.tail _ (.head _))), dycmdOf o, hd _, groupsBack o⟩⟩
    · simp only [List.map_cons, List.map_nil]
      rw [K.seg, K.ver v hx, K.sym, K.dy.1, hx]
      rfl
    · rw [hx] at h
      simp only [Option.some.injEq] at h
      subst h
      refine ⟨_, List.mem_cons_of_mem _ (List.mem_cons_self ..), ?_⟩
      obtain ⟨v1, v2, v3⟩ := hf.version v hx
      have hdec := (version_decode c ⟨v.platform, v.minos, v.sdk, 0⟩ v1 v2 v3 rfl []).1
      unfold buildVersion
      rw [if_neg (by show ¬ (field _ _ _ _ ≠ _); rw [K.ver v hx]; decide)]
      have hl := length_version c ⟨v.platform, v.minos, v.sdk, 0⟩
      have := read_prefix (BuildVersion.encode c ⟨v.platform, v.minos, v.sdk, 0⟩) []
      rw [List.append_nil, hl] at this
      simp only
      rw [this]
      simp only
      rw [hdec]
      have : Elf.readSliceAt [] 0 8 0 = .ok [] := by decide
      rw [this]
      rfl

theorem flags_bits (o : W.Object) (x : Extra) (b : Nat) : (fileFlags o x).testBit b = true ↔
    (∃ n, x.flags = some n ∧ n.testBit b = true) ∨ (b = 13 ∧ o.subsectionsViaSymbols = true) := by
  have h1 : (x.flags.getD 0).testBit b = true ↔ ∃ n, x.flags = some n ∧ n.testBit b = true := by
    cases x.flags with
    | none => simp
    | some n => simp
  have h2 : (0x2000 : Nat).testBit b = true ↔ b = 13 := by
    rw [show (0x2000 : Nat) = 2 ^ 13 from rfl, Nat.testBit_two_pow]
    simp only [decide_eq_true_iff]
    exact eq_comm
  unfold fileFlags
  cases o.subsectionsViaSymbols with
  | true => rw [if_pos rfl, Nat.testBit_or, Bool.or_eq_true, h1, h2]; simp
  | false => rw [if_neg (by simp), h1]; simp

theorem readsBack (hv : Valid o) (hf : MachoO.Fits o x) (im : Image c o x t data cpu sub hs ys file) (hen : c.en = o.endian)
    (h64 : elfIs64 o.arch = some c.is64) :
    ReadsBack o x file (orderOf o) (fileOf c o x data cpu sub hs ys) (segOf c o x) := by
  refine ⟨⟨h64, parse_ok hv hf im⟩, hen, ⟨sub, im.table, rfl⟩, rfl, flags_bits o x, ?_, ?_, ?_, ?_, order_ok o, ?_, ?_, ?_⟩
  · refine ⟨rfl, ?_, rfl, rfl, rfl, rfl, rfl⟩
    exact upToNul_pad [] 16 (by simp)
  · show (hs.map secInt).length = _
    rw [List.length_map, im.headers.1]
  · intro i s hi
    obtain ⟨h, h1, H⟩ := heads hv im hi
    refine ⟨secInt h, ?_, sectionBack hv im hen hi H⟩
    show (hs.map secInt)[i]? = _
    rw [List.getElem?_map, h1]; rfl
  · intro i j a b ha hb hne
    have get : ∀ (i : Nat) (a : SecInt), (fileOf c o x data cpu sub hs ys).sections[i]? = some a → ∃ s p, o.sections[i]? = some s ∧
        (placesOf (cmdsOf c o.sections.length x.version).stop o.sections)[i]? = some p ∧ a.sect.addr = p.1 ∧ a.sect.size = s.size := by
      intro i a h
      have h : (hs.map secInt)[i]? = some a := h
      rw [List.getElem?_map] at h
      cases hh : hs[i]? with
      | none => rw [hh] at h; cases h
      | some q =>
        rw [hh] at h
        simp only [Option.map_some, Option.some.injEq] at h
        subst h
        have hlt : i < o.sections.length := by rw [← im.headers.1]; exact length_of_getElem? hh
        obtain ⟨h', e1, H⟩ := heads hv im (List.getElem?_eq_getElem hlt)
        rw [hh] at e1
        simp only [Option.some.injEq] at e1
        subst e1
        obtain ⟨p, p1, p2⟩ := H.place
        exact ⟨_, p, List.getElem?_eq_getElem hlt, p1, p2, H.size⟩
    obtain ⟨s, p, s1, s2, s3, s4⟩ := get i a ha
    obtain ⟨s', p', t1, t2, t3, t4⟩ := get j b hb
    have h0 : ∀ s ∈ o.sections, s.align ≠ 0 := by
      intro s hs
      obtain ⟨k, -, h⟩ := hv.align s hs
      rw [h]; exact Nat.ne_of_gt (Nat.two_pow_pos k)
    rw [s3, s4, t3, t4]
    rcases Nat.lt_or_gt_of_ne hne with hlt | hlt
    · exact places_disjoint _ o.sections h0 i j s s' p p' s1 t1 hlt s2 t2
    · exact (places_disjoint _ o.sections h0 j i s' s p' p t1 s1 hlt t2 s2).symm
  · show (ys.map _).length = _
    rw [List.length_map, im.symsLen]
  · intro k i s hk hi
    exact symbolBack hv hf im hk hi
  · exact ⟨_, cmdData c o x data hs, loadCommands_ok im, runs_cmds c.en (cmdBytes c o x data hs) (hdrSize c) (cmds_ok hv hf im) (flatten_lt im),
      commandsBack hv hf im⟩

end Obj.MachoW
