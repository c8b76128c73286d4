import Verif.Proof.BuildRead7
import Verif.Props.BuildDelete
import Verif.Props.FileKind

/-!
# C94: the ELF builder holds what the file says

See `Spec/BuildRead.lean` for what the builder of a file is.
-/

namespace Obj.Props
open Obj Obj.Build Obj.Spec Obj.Spec.BuildR Obj.BuildR
open Obj.Build.Spec (InRange VerInRange NoOrphans OrphanDyn Live)
open Obj.Spec.MachoF (num Each)

/-- C94: reading a file of a given class succeeds exactly if the file is well-formed, and then gives the builder that holds what the file
says. -/
theorem C94_exact (is64 : Bool) (data : List UInt8) (hlen : data.length < 2 ^ 64) (b : Full) :
    readFile is64 data = .ok b ↔ Image is64 data b := readFile_iff is64 data hlen b

/-- C94: there is only one such builder. -/
theorem C94_unique (is64 : Bool) (data : List UInt8) (hlen : data.length < 2 ^ 64) (b b' : Full) (h : Image is64 data b) (h' : Image is64 data b') :
    b = b' := by
  have h := (readFile_iff is64 data hlen b).2 h
  rw [(readFile_iff is64 data hlen b').2 h'] at h
  injection h with h
  exact h.symm

private theorem image_kind (is64 : Bool) (data : List UInt8) (b : Full) (h : Image is64 data b) :
    FileKind.parseAt data 0 = .ok (if is64 then .elf64 else .elf32) := by
  obtain ⟨t, hd, ps, i⟩ := h
  have h1 := i.size
  have h2 := i.ident
  rw [C41_exact]
  have hs : slice data 0 5 = (slice data 0 7).take 5 := by unfold slice; simp [List.take_take]
  cases is64
  · refine ⟨by unfold Spec.ElfF.headerSize at h1; simp at h1; omega, ?_⟩
    unfold Magic At
    rw [show ([0x7f] ++ "ELF".toUTF8.toList ++ [1] : List UInt8) = [0x7f, 0x45, 0x4c, 0x46, 1] from by decide +kernel]
    simp only [List.length_cons, List.length_nil]
    rw [show 0 + 1 + 1 + 1 + 1 + 1 = 5 from rfl, hs, h2]
    rfl
  · refine ⟨by unfold Spec.ElfF.headerSize at h1; simp at h1; omega, ?_⟩
    unfold Magic At
    rw [show ([0x7f] ++ "ELF".toUTF8.toList ++ [2] : List UInt8) = [0x7f, 0x45, 0x4c, 0x46, 2] from by decide +kernel]
    simp only [List.length_cons, List.length_nil]
    rw [show 0 + 1 + 1 + 1 + 1 + 1 = 5 from rfl, hs, h2]
    rfl

/-- C94: `Builder::read` accepts the files of both classes. -/
theorem C94_read (data : List UInt8) (hlen : data.length < 2 ^ 64) (b : Full) :
    Build.read data = .ok b ↔ Image false data b ∨ Image true data b := by
  unfold Build.read
  rw [Res.bind_eq_ok]
  constructor
  · rintro ⟨k, -, h⟩
    cases k <;> first | cases h; done | skip
    · exact .inl ((readFile_iff _ _ hlen _).1 h)
    · exact .inr ((readFile_iff _ _ hlen _).1 h)
  · rintro (h | h)
    · exact ⟨.elf32, by simpa using image_kind _ _ _ h, (readFile_iff _ _ hlen _).2 h⟩
    · exact ⟨.elf64, by simpa using image_kind _ _ _ h, (readFile_iff _ _ hlen _).2 h⟩

/-- C94: reading never panics. -/
theorem C94_no_panic (data : List UInt8) (hlen : data.length < 2 ^ 64) : Build.read data ≠ .panic ∧ ∀ is64, readFile is64 data ≠ .panic := by
  refine ⟨?_, fun is64 => readFile_np is64 data hlen⟩
  unfold Build.read
  refine Res.bind_no_panic (C41_total data 0).1 fun k _ => ?_
  cases k <;> first | exact readFile_np _ data hlen | simp

private theorem zipIdx_drop {α : Type} {l : List α} {i : Nat} {p : α × Nat} (h : (l.zipIdx.drop 1)[i]? = some p) : l[i + 1]? = some p.1 ∧ p.2 = i + 1 := by
  rw [List.getElem?_drop] at h
  have := (ElfF.zipIdx_get l (1 + i) p).1 h
  rw [show i + 1 = 1 + i by omega]
  exact this

/-- C94: the ids of a builder that was read are the positions in the tables, and nothing is deleted. -/
theorem C94_ids (is64 : Bool) (data : List UInt8) (hlen : data.length < 2 ^ 64) (b : Full) (h : readFile is64 data = .ok b) :
    (∀ (i : Nat) x, b.tables.segments[i]? = some x → x.id = i ∧ x.delete = false) ∧
    (∀ (i : Nat) x, b.tables.sections[i]? = some x → x.id = i ∧ x.delete = false) ∧
    (∀ (i : Nat) x, b.tables.symbols[i]? = some x → x.id = i ∧ x.delete = false) ∧
    (∀ (i : Nat) x, b.tables.dynamicSymbols[i]? = some x → x.id = i ∧ x.delete = false) ∧
    (∀ (i : Nat) x, b.tables.versionFiles[i]? = some x → x.id = i ∧ x.delete = false) ∧
    (∀ (i : Nat) x, b.tables.versions[i]? = some x → x.id = i ∧ x.delete = false) := by
  obtain ⟨t, hd, ps, im⟩ := (readFile_iff is64 data hlen b).1 h
  obtain ⟨defs, needs, -, -, v, -⟩ := im.bVersions
  refine ⟨?_, ?_, ?_, ?_, ?_, ?_⟩
  · intro i x hx
    rw [im.bSegments, List.getElem?_map, Option.map_eq_some_iff] at hx
    obtain ⟨p, hp, rfl⟩ := hx
    exact ⟨((ElfF.zipIdx_get ps i p).1 hp).2, rfl⟩
  · intro i x hx
    obtain ⟨p, hp, h1, h2, -⟩ := each_get im.bSections hx
    have := (zipIdx_drop hp).2
    exact ⟨by omega, h2⟩
  · intro i x hx
    obtain ⟨p, hp, h1, h2, -⟩ := each_get im.bSymbols hx
    have := (zipIdx_drop hp).2
    exact ⟨by omega, h2⟩
  · intro i x hx
    obtain ⟨p, hp, h1, h2, -⟩ := each_get im.bDynSymbols hx
    have := (zipIdx_drop hp).2
    exact ⟨by omega, h2⟩
  · intro i x hx
    obtain ⟨names, -, e⟩ := v.files
    rw [e, List.getElem?_map, Option.map_eq_some_iff] at hx
    obtain ⟨p, hp, rfl⟩ := hx
    exact ⟨((ElfF.zipIdx_get _ i p).1 hp).2, rfl⟩
  · intro i x hx
    obtain ⟨ds, ns, -, -, e⟩ := v.versions
    rw [e, List.getElem?_map, Option.map_eq_some_iff] at hx
    obtain ⟨p, hp, rfl⟩ := hx
    exact ⟨((ElfF.zipIdx_get _ i p).1 hp).2, rfl⟩

private theorem relocs_lt {t : Tables} {data : List UInt8} {s : Elf.Shdr} {count : Nat} {l : List Build.Rel} (h : RelocsOf t data s count l) :
    ∀ r ∈ l, ∀ i, r.symbol = some i → i + 1 < count := by
  obtain ⟨rela, rs, -, -, h⟩ := h
  intro r hr i hi
  obtain ⟨x, -, -, -, -, h⟩ := each_mem h hr
  rcases h with ⟨-, h⟩ | ⟨h1, h2, h3⟩
  · rw [h] at hi; cases hi
  · rw [h3] at hi
    injection hi with hi
    omega

/-- C94: every reference in a builder that was read is to an existing item. -/
theorem C94_references (is64 : Bool) (data : List UInt8) (hlen : data.length < 2 ^ 64) (b : Full) (h : readFile is64 data = .ok b) :
    InRange b.tables ∧ VerInRange b.tables := by
  obtain ⟨i1, i2, i3, i4, i5, i6⟩ := C94_ids is64 data hlen b h
  obtain ⟨t, hd, ps, im⟩ := (readFile_iff is64 data hlen b).1 h
  obtain ⟨defs, needs, -, -, v, sv⟩ := im.bVersions
  have hsec : b.tables.sections.length = t.sections.length - 1 := by rw [each_length im.bSections]; simp
  have hsym : b.tables.symbols.length = t.symbols.symbols.length - 1 := by rw [each_length im.bSymbols]; simp
  have hdyn : b.tables.dynamicSymbols.length = t.dynSymbols.symbols.length - 1 := by rw [each_length im.bDynSymbols]; simp
  have hsy : ∀ {y ps l}, Each (SymbolOf data y t.sections.length) ps l → ∀ s ∈ l, ∀ i, s.section_ = some i → i < b.tables.sections.length := by
    intro y ps l hl s hs i hi
    obtain ⟨p, -, -, -, -, ⟨k, -, h⟩, -⟩ := each_mem hl hs
    rcases h with ⟨-, h⟩ | ⟨h1, h2, h3⟩
    · rw [h] at hi; cases hi
    · rw [h3] at hi; injection hi with hi; omega
  refine ⟨⟨?_, hsy im.bSymbols, hsy im.bDynSymbols, ?_, ?_⟩, ⟨?_, ?_, fun i x hx => (i6 i x hx).1, fun i x hx => (i5 i x hx).1⟩⟩
  · intro s hs i hi
    rw [im.bSegments] at hs
    obtain ⟨p, -, rfl⟩ := List.mem_map.1 hs
    obtain ⟨x, hx, rfl⟩ := List.mem_map.1 hi
    obtain ⟨k, hk⟩ := List.getElem?_of_mem (List.mem_filter.1 hx).1
    rw [(i2 k x hk).1]
    exact (List.getElem?_eq_some_iff.1 hk).1
  · intro c hc l hl r hr i hi
    obtain ⟨p, -, hp⟩ := each_mem im.bSections hc
    have hcon := hp.2.2.2.2.2.2.2.2.2.2.2.2.2
    rw [hl] at hcon
    cases hcon with
    | relocs _ h2 => have := relocs_lt h2 r hr i hi; omega
  · intro c hc l hl r hr i hi
    obtain ⟨p, -, hp⟩ := each_mem im.bSections hc
    have hcon := hp.2.2.2.2.2.2.2.2.2.2.2.2.2
    rw [hl] at hcon
    cases hcon with
    | dynRelocs h1 h2 =>
      have := relocs_lt h2 r hr i hi
      rcases h1 with ⟨-, h1⟩ | ⟨-, -, h1⟩ <;> omega
  · have hv : (indices defs needs).length = b.tables.versions.length := by
      obtain ⟨ds, ns, e1, e2, e⟩ := v.versions
      rw [e]
      have h1 := each_length e1
      have h2 := each_length e2
      have h3 : (needs.zipIdx.flatMap fun n => n.1.2.map fun a => (n.2, a)).length = (needs.flatMap fun n => n.2.map (·.other)).length := by
        simp only [List.length_flatMap, List.length_map]
        have : (needs.zipIdx.map Prod.fst).map (fun n => n.2.length) = needs.map fun n => n.2.length := by rw [List.zipIdx_map_fst]
        rw [List.map_map] at this
        exact congrArg List.sum this
      unfold indices
      simp only [List.length_append, List.length_map, List.length_zipIdx] at *
      omega
    intro s hs _
    rcases sv with ⟨-, h0⟩ | ⟨i, s', vs, -, -, -, -, -, -, he⟩
    · rw [(h0 s hs).1]; omega
    · obtain ⟨x, -, -, hx⟩ := each_mem he hs
      rcases hx with ⟨-, h⟩ | ⟨-, h⟩ | ⟨k, hk, h⟩
      · omega
      · omega
      · have := (List.getElem?_eq_some_iff.1 hk).1
        omega
  · intro x hx _ file name flags hd'
    obtain ⟨ds, ns, e1, e2, e⟩ := v.versions
    obtain ⟨names, f1, f⟩ := v.files
    rw [e] at hx
    obtain ⟨⟨d, k⟩, hd1, rfl⟩ := List.mem_map.1 hx
    simp only at hd'
    have hmem : d ∈ ds ++ ns := List.mem_of_getElem? (List.mem_zipIdx_iff_getElem?.1 hd1)
    rcases List.mem_append.1 hmem with hm | hm
    · obtain ⟨_, -, names, -, rfl⟩ := each_mem e1 hm
      cases hd'
    · obtain ⟨⟨fi, a⟩, ha, nm, -, rfl⟩ := each_mem e2 hm
      injection hd' with hd1 hd2 hd3
      obtain ⟨⟨n, j⟩, hn, hn2⟩ := List.mem_flatMap.1 ha
      obtain ⟨a', -, ha'⟩ := List.mem_map.1 hn2
      injection ha' with ha1 ha2
      have hj := (List.getElem?_eq_some_iff.1 (List.mem_zipIdx_iff_getElem?.1 hn)).1
      rw [f]
      have := each_length f1
      simp only [List.length_map, List.length_zipIdx]
      simp only at hj ha1
      omega

/-- C94: so a builder that was read has nothing for `delete_orphans` to delete, unless the dynamic section has an entry that needs a kind of
section of which there is none. -/
theorem C94_no_orphans (is64 : Bool) (data : List UInt8) (hlen : data.length < 2 ^ 64) (b : Full) (h : readFile is64 data = .ok b)
    (hd : ∀ c ∈ b.tables.sections, ∀ l, c.data = .dynamic l → ∀ d ∈ l, ¬ OrphanDyn b.tables.sections d) :
    NoOrphans b.tables ∧ b.tables.deleteOrphans = .ok b.tables := by
  obtain ⟨-, i2, i3, i4, -⟩ := C94_ids is64 data hlen b h
  obtain ⟨hr, -⟩ := C94_references is64 data hlen b h
  have hsec : ∀ i, i < b.tables.sections.length → Live b.tables.sections i := fun i hi => ⟨_, List.getElem?_eq_getElem hi, (i2 i _ (List.getElem?_eq_getElem hi)).2⟩
  have hsym : ∀ i, i < b.tables.symbols.length → Live b.tables.symbols i := fun i hi => ⟨_, List.getElem?_eq_getElem hi, (i3 i _ (List.getElem?_eq_getElem hi)).2⟩
  have hdyn : ∀ i, i < b.tables.dynamicSymbols.length → Live b.tables.dynamicSymbols i := fun i hi => ⟨_, List.getElem?_eq_getElem hi, (i4 i _ (List.getElem?_eq_getElem hi)).2⟩
  have hn : NoOrphans b.tables := ⟨fun s hs _ i hi => hsec i (hr.segs s hs i hi), fun s hs _ i hi => hsec i (hr.syms s hs i hi),
    fun s hs _ i hi => hsec i (hr.dynSyms s hs i hi), fun c hc _ l hl r hr' i hi => hsym i (hr.rels c hc l hl r hr' i hi),
    fun c hc _ l hl r hr' i hi => hdyn i (hr.dynRels c hc l hl r hr' i hi), fun c hc _ l hl d hd' => hd c hc l hl d hd'⟩
  exact ⟨hn, C65_nothing_to_delete _ hr hn⟩

/-! ## An example: a 32-bit library with a relocation for `main` in `.text`, and a hidden dynamic symbol `puts` of version 3, which is
`GLIBC_2` of `libc.so` -/

private def exFile : List UInt8 := [
    127, 69, 76, 70, 1, 1, 1, 0, 0, 0, 0, 0, 0, 0, 0, 0, 3, 0, 3, 0, 1, 0, 0, 0, 0, 16, 0, 0, 52, 0, 0, 0, 127, 1, 0, 0, 0, 0, 0, 0,
    52, 0, 32, 0, 1, 0, 40, 0, 12, 0, 11, 0, 1, 0, 0, 0, 84, 0, 0, 0, 0, 16, 0, 0, 0, 16, 0, 0, 146, 0, 0, 0, 146, 0, 0, 0, 5, 0, 0, 0,
    0, 16, 0, 0, 144, 144, 144, 195, 2, 0, 0, 0, 1, 1, 0, 0, 252, 255, 255, 255, 0, 0, 0, 0, 0, 0, 0, 0, 0, 0, 0, 0, 0, 0, 0, 0, 1, 0, 0, 0,
    0, 16, 0, 0, 4, 0, 0, 0, 18, 0, 1, 0, 0, 109, 97, 105, 110, 0, 0, 0, 0, 0, 0, 0, 0, 0, 0, 0, 0, 0, 0, 0, 0, 0, 17, 0, 0, 0, 0, 0,
    0, 0, 0, 0, 0, 0, 18, 0, 0, 0, 0, 108, 105, 98, 99, 46, 115, 111, 0, 71, 76, 73, 66, 67, 95, 50, 0, 112, 117, 116, 115, 0, 0, 0, 3, 128, 1, 0, 1, 0,
    1, 0, 0, 0, 16, 0, 0, 0, 0, 0, 0, 0, 52, 18, 0, 0, 0, 0, 3, 0, 9, 0, 0, 0, 0, 0, 0, 0, 1, 0, 0, 0, 1, 0, 0, 0, 5, 0, 0, 0,
    36, 16, 0, 0, 21, 0, 0, 0, 7, 0, 0, 0, 0, 0, 0, 0, 0, 0, 0, 0, 1, 0, 0, 0, 2, 0, 0, 0, 1, 0, 0, 0, 0, 0, 0, 0, 0, 0, 0, 0,
    0, 46, 116, 101, 120, 116, 0, 46, 114, 101, 108, 97, 46, 116, 101, 120, 116, 0, 46, 115, 121, 109, 116, 97, 98, 0, 46, 115, 116, 114, 116, 97, 98, 0, 46, 100, 121, 110, 115, 121,
    109, 0, 46, 100, 121, 110, 115, 116, 114, 0, 46, 103, 110, 117, 46, 118, 101, 114, 115, 105, 111, 110, 0, 46, 103, 110, 117, 46, 118, 101, 114, 115, 105, 111, 110, 95, 114, 0, 46, 100,
    121, 110, 97, 109, 105, 99, 0, 46, 104, 97, 115, 104, 0, 46, 115, 104, 115, 116, 114, 116, 97, 98, 0, 0, 0, 0, 0, 0, 0, 0, 0, 0, 0, 0, 0, 0, 0, 0, 0, 0,
    0, 0, 0, 0, 0, 0, 0, 0, 0, 0, 0, 0, 0, 0, 0, 0, 0, 0, 0, 0, 0, 0, 0, 1, 0, 0, 0, 1, 0, 0, 0, 6, 0, 0, 0, 0, 16, 0, 0, 84,
    0, 0, 0, 4, 0, 0, 0, 0, 0, 0, 0, 0, 0, 0, 0, 1, 0, 0, 0, 0, 0, 0, 0, 7, 0, 0, 0, 4, 0, 0, 0, 64, 0, 0, 0, 0, 0, 0, 0, 88,
    0, 0, 0, 12, 0, 0, 0, 3, 0, 0, 0, 1, 0, 0, 0, 1, 0, 0, 0, 0, 0, 0, 0, 18, 0, 0, 0, 2, 0, 0, 0, 0, 0, 0, 0, 0, 0, 0, 0, 100,
    0, 0, 0, 32, 0, 0, 0, 4, 0, 0, 0, 1, 0, 0, 0, 1, 0, 0, 0, 0, 0, 0, 0, 26, 0, 0, 0, 3, 0, 0, 0, 0, 0, 0, 0, 0, 0, 0, 0, 132,
    0, 0, 0, 6, 0, 0, 0, 0, 0, 0, 0, 0, 0, 0, 0, 1, 0, 0, 0, 0, 0, 0, 0, 34, 0, 0, 0, 11, 0, 0, 0, 2, 0, 0, 0, 4, 16, 0, 0, 138,
    0, 0, 0, 32, 0, 0, 0, 6, 0, 0, 0, 1, 0, 0, 0, 1, 0, 0, 0, 0, 0, 0, 0, 42, 0, 0, 0, 3, 0, 0, 0, 2, 0, 0, 0, 36, 16, 0, 0, 170,
    0, 0, 0, 22, 0, 0, 0, 0, 0, 0, 0, 0, 0, 0, 0, 1, 0, 0, 0, 0, 0, 0, 0, 50, 0, 0, 0, 255, 255, 255, 111, 2, 0, 0, 0, 58, 16, 0, 0, 192,
    0, 0, 0, 4, 0, 0, 0, 5, 0, 0, 0, 0, 0, 0, 0, 1, 0, 0, 0, 0, 0, 0, 0, 63, 0, 0, 0, 254, 255, 255, 111, 2, 0, 0, 0, 62, 16, 0, 0, 196,
    0, 0, 0, 32, 0, 0, 0, 6, 0, 0, 0, 1, 0, 0, 0, 1, 0, 0, 0, 0, 0, 0, 0, 78, 0, 0, 0, 6, 0, 0, 0, 3, 0, 0, 0, 94, 16, 0, 0, 228,
    0, 0, 0, 32, 0, 0, 0, 6, 0, 0, 0, 0, 0, 0, 0, 1, 0, 0, 0, 0, 0, 0, 0, 87, 0, 0, 0, 5, 0, 0, 0, 2, 0, 0, 0, 126, 16, 0, 0, 4,
    1, 0, 0, 20, 0, 0, 0, 5, 0, 0, 0, 0, 0, 0, 0, 1, 0, 0, 0, 0, 0, 0, 0, 93, 0, 0, 0, 3, 0, 0, 0, 0, 0, 0, 0, 0, 0, 0, 0, 24,
    1, 0, 0, 103, 0, 0, 0, 0, 0, 0, 0, 0, 0, 0, 0, 1, 0, 0, 0, 0, 0, 0, 0]

private def exCheck (p : Full → Bool) : Bool := match Build.read exFile with
  | .ok b => p b
  | _ => false

example : exCheck (fun b => b.loadAlign == 0x1000 && b.hashBuckets == 1 && b.versionBase == none &&
  b.tables.segments.map (·.sections) == [[0, 4, 5, 6, 7, 8, 9]]) = true := by decide +kernel
example : exCheck (fun b => b.tables.sections.map (·.data) == [.data [0x90, 0x90, 0x90, 0xc3], .relocs [⟨2, some 0, 1, -4⟩], .symbol, .string,
  .dynamicSymbol, .dynamicString, .gnuVersym, .gnuVerneed, .dynamic [.string 1 "libc.so".toUTF8.toList, .auto 5, .integer 21 7], .hash,
  .sectionString]) = true := by decide +kernel
example : exCheck (fun b => b.tables.sections.map (·.linkSection) == [none, some 2, some 3, none, some 5, none, some 4, some 5, some 5, some 4, none] &&
  b.tables.sections.map (·.infoSection) == none :: some 0 :: List.replicate 9 none) = true := by decide +kernel
example : exCheck (fun b => b.tables.symbols == [⟨0, false, "main".toUTF8.toList, some 0, 0x12, 0, 1, 0x1000, 4, 0, false⟩] &&
  b.tables.dynamicSymbols == [⟨0, false, "puts".toUTF8.toList, none, 0x12, 0, 0, 0, 0, 2, true⟩] &&
  b.tables.versionFiles == [⟨0, false, "libc.so".toUTF8.toList⟩] && b.tables.versions == [⟨0, .need 0 "GLIBC_2".toUTF8.toList 0, false⟩]) = true := by
  decide +kernel

/-- The hypotheses of the theorems can be met. -/
example : ∃ b, Image false exFile b := by
  have h : exCheck (fun _ => true) = true := by decide +kernel
  unfold exCheck at h
  split at h
  · rename_i b hb
    have hl : exFile.length < 2 ^ 64 := by decide +kernel
    rcases (C94_read exFile hl b).1 hb with h1 | h1
    · exact ⟨b, h1⟩
    · obtain ⟨t, hd, ps, im⟩ := h1
      have := im.ident
      rw [show slice exFile 0 7 = [0x7f, 0x45, 0x4c, 0x46, 1, 1, 1] from by decide +kernel] at this
      simp at this
  · cases h

end Obj.Props
