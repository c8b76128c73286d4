import Verif.Props.WriteObject

/-!
# C60, C61: exact effects of the builder calls
-/

namespace Obj.Props
open Obj.W Obj.W.Spec

/-- **C60.** `add_section` appends an empty section with the given segment, name and kind and returns its
index; it changes neither other sections nor symbols. -/
theorem C60_add_section (o : Object) (segment name : List UInt8) (kind : SectionKind) :
    (o.addSection segment name kind).1 = o.sections.length ∧
    (o.addSection segment name kind).2.sections = o.sections ++
      [{ segment := segment, name := name, kind := kind, size := 0, align := 1, data := [], relocs := [],
         symbol := none, flags := .none }] ∧
    (o.addSection segment name kind).2.symbols = o.symbols ∧
    (o.addSection segment name kind).2.comdats = o.comdats := ⟨rfl, rfl, rfl, rfl⟩

private theorem setFlags_last (o : Object) (l : List Section) (s : Section) (h : o.sections = l ++ [s])
    (f : SecFlags) : (o.setSectionFlags l.length f).sections = l ++ [{ s with flags := f }] := by
  unfold Object.setSectionFlags
  rw [h]
  simp [Object.setSection, h]

private theorem setFlags_rest (o : Object) (i : Nat) (f : SecFlags) :
    (o.setSectionFlags i f).symbols = o.symbols := by
  unfold Object.setSectionFlags
  split <;> rfl

/-- **C60.** `add_subsection` in an ELF or COFF object always appends a new section with the kind and flags
of the standard section, named after it with `.value` (ELF) or `$value` (COFF) appended if the value is not
empty; in a Mach-O object it is the standard section itself. -/
theorem C60_add_subsection (o : Object) (ss : StdSection) (value : List UInt8) :
    (o.format = .elf ∨ o.format = .coff → ∃ o', o.addSubsection ss value = .ok (o.sections.length, o') ∧
      o'.symbols = o.symbols ∧
      o'.sections = o.sections ++
        [{ segment := (sectionInfo o.format o.arch ss).segment,
           name := (sectionInfo o.format o.arch ss).name ++
             (if value = [] then [] else (if o.format = .elf then 46 else 36) :: value),
           kind := (sectionInfo o.format o.arch ss).kind, size := 0, align := 1, data := [], relocs := [],
           symbol := none, flags := (sectionInfo o.format o.arch ss).flags }]) ∧
    (o.format = .macho → o.addSubsection ss value = .ok (o.sectionId ss)) := by
  constructor
  · intro hf
    unfold Object.addSubsection
    rw [if_neg (by rintro h; rw [h] at hf; simp at hf)]
    have hn : subsectionName o.format (sectionInfo o.format o.arch ss).name value =
        some ((sectionInfo o.format o.arch ss).name ++
             (if value = [] then [] else (if o.format = .elf then 46 else 36) :: value)) := by
      obtain hf | hf := hf <;> rw [hf] <;> simp only [subsectionName] <;> by_cases hv : value = [] <;> simp [hv]
    simp only [hn]
    refine ⟨_, rfl, ?_, ?_⟩
    · rw [setFlags_rest]; rfl
    · exact setFlags_last (o.addSection _ _ _).2 o.sections _ rfl _
  · intro hf
    unfold Object.addSubsection
    rw [if_pos hf]

example : ((Object.new .coff .x86_64 .little).addSubsection .text [102]).bind
    (fun r => .ok (r.2.sections.map (·.name))) = .ok [[46, 116, 101, 120, 116, 36, 102]] := by decide

/-- **C61.** The symbol that `section_symbol` creates is named after the section in a COFF object, `ltmp`
and the section index in a Mach-O object, and has no name otherwise. -/
theorem C61_section_symbol_name (o o' : Object) (i k : Nat) (s : Section) (hs : o.sections[i]? = some s)
    (hn : s.symbol = none) (h : o.sectionSymbol i = .ok (k, o')) :
    ∃ y, o'.symbols[k]? = some y ∧
      (o.format = .coff → y.name = s.name) ∧
      (o.format = .macho → y.name = ascii "ltmp" ++ ascii (toString i)) ∧
      (o.format = .elf ∨ o.format = .xcoff → y.name = []) := by
  unfold Object.sectionSymbol at h
  rw [hs] at h
  simp only [hn, Res.ok.injEq, Prod.mk.injEq] at h
  obtain ⟨rfl, rfl⟩ := h
  refine ⟨_, List.getElem?_concat_length, ?_, ?_, ?_⟩
  · intro hf; simp only [hf]
  · intro hf; simp only [hf]
    have h1 : ([108, 116, 109, 112] : List UInt8) = ascii "ltmp" := by decide
    have h2 : toString i = Nat.repr i := rfl
    rw [h2, ← h1]
    simp [ltmp, Nat.repr, ascii]
  · rintro (hf | hf) <;> simp only [hf]

/-- **C61.** `add_symbol` of a symbol of kind section returns the section symbol of its section; its flags
replace those of the section symbol unless they are none. -/
theorem C61_add_section_symbol (o : Object) (s : Symbol) (i k : Nat) (o1 : Object)
    (hk : s.kind = .sectionSym) (hd : s.scope ≠ .unknown) (hi : s.section_ = .inSec i)
    (h : o.sectionSymbol i = .ok (k, o1)) :
    (s.flags = .none → o.addSymbol s = .ok (k, o1)) ∧
    (s.flags ≠ .none → ∀ y, o1.symbols[k]? = some y →
      o.addSymbol s = .ok (k, { o1 with symbols := o1.symbols.set k { y with flags := s.flags } })) := by
  unfold Object.addSymbol
  rw [if_neg (by simp [hd]), if_pos hk, hi]
  simp only [SymSection.id?, h, Res.ok_bind]
  constructor
  · intro hf
    rw [if_neg (by simp [hf])]
  · intro hf y hy
    rw [if_pos hf, hy]
    rfl

/-- **C61.** A common symbol is added as a symbol of the given size whose value is the alignment; a file
symbol has the given name; COMDAT ids are the indices in order. -/
theorem C61_add_other (o : Object) :
    (∀ s size align, o.addCommonSymbol s size align =
      o.addSymbol { s with section_ := .common, size := size, value := align }) ∧
    (∀ name, ∃ y, o.addFileSymbol name = (o.symbols.length, { o with symbols := o.symbols ++ [y] }) ∧
      y.name = name ∧ y.kind = .file ∧ y.section_ = .none ∧ y.scope = .compilation ∧ y.value = 0) ∧
    (∀ c, o.addComdat c = (o.comdats.length, { o with comdats := o.comdats ++ [c] })) :=
  ⟨fun _ _ _ => rfl, fun _ => ⟨_, rfl, rfl, rfl, rfl, rfl, rfl⟩, fun _ => rfl⟩

/-- **C61.** `set_symbol_data` sets exactly the section, value and size of the symbol (other than for a
thread-local symbol of a Mach-O object). -/
theorem C61_set_symbol_data (o o' : Object) (sym sec offset size : Nat) (y : Symbol)
    (hy : o.symbols[sym]? = some y) (ht : ¬ (o.format = .macho ∧ y.kind = .tls)) :
    o.setSymbolData sym sec offset size = .ok o' ↔
      y.scope ≠ .unknown ∧
      o' = { o with
        symbols := o.symbols.set sym { y with section_ := .inSec sec, value := offset, size := size } } := by
  unfold Object.setSymbolData
  simp only [hy]
  by_cases hu : y.scope = .unknown
  · simp [hu]
  · rw [if_neg hu]
    have : (if o.format = .macho then o.addThreadVar sym else .ok (sym, o)) = .ok (sym, o) := by
      by_cases hf : o.format = .macho
      · rw [if_pos hf]
        unfold Object.addThreadVar
        simp only [hy]
        rw [if_pos (fun h => ht ⟨hf, h⟩)]
      · rw [if_neg hf]
    rw [this]
    simp only [Res.ok_bind, hy, Res.ok.injEq]
    constructor
    · rintro rfl; exact ⟨hu, rfl⟩
    · rintro ⟨_, rfl⟩; rfl

/-- **C61.** `add_symbol_data` appends the data to the section (one zero byte for no data, if the object is
divided at symbols) and makes the symbol refer to it; it returns the offset. -/
theorem C61_add_symbol_data (o o1 : Object) (sym sec : Nat) (data d : List UInt8) (align off : Nat) (y : Symbol)
    (hy : o.symbols[sym]? = some y) (ht : ¬ (o.format = .macho ∧ y.kind = .tls)) (hu : y.scope ≠ .unknown)
    (hd : d = if data = [] ∧ o.subsectionsViaSymbols = true then [0] else data)
    (h : o.appendSectionData sec d align = .ok (off, o1)) :
    o.addSymbolData sym sec data align = .ok (off, { o1 with
      symbols := o1.symbols.set sym { y with section_ := .inSec sec, value := off, size := d.length } }) := by
  have he : o1.symbols = o.symbols ∧ o1.format = o.format := by
    obtain ⟨s, _, _, _, _, _, _, rfl⟩ := (C43_append_data o o1 sec d align off).1 h
    exact ⟨rfl, rfl⟩
  unfold Object.addSymbolData
  simp only
  rw [← hd, h, Res.ok_bind]
  simp only
  rw [(C61_set_symbol_data o1 _ sym sec off d.length y (by rw [he.1]; exact hy) (by rw [he.2]; exact ht)).2
    ⟨hu, rfl⟩, Res.ok_bind]

/-- **C61.** `add_symbol_bss` reserves the size in the section (one byte for size 0, if the object is
divided at symbols) and makes the symbol refer to it; it returns the offset. -/
theorem C61_add_symbol_bss (o o1 : Object) (sym sec : Nat) (size n : Nat) (align off : Nat) (y : Symbol)
    (hy : o.symbols[sym]? = some y) (ht : ¬ (o.format = .macho ∧ y.kind = .tls)) (hu : y.scope ≠ .unknown)
    (hd : n = if size = 0 ∧ o.subsectionsViaSymbols = true then 1 else size)
    (h : o.appendSectionBss sec n align = .ok (off, o1)) :
    o.addSymbolBss sym sec size align = .ok (off, { o1 with
      symbols := o1.symbols.set sym { y with section_ := .inSec sec, value := off, size := n } }) := by
  have he : o1.symbols = o.symbols ∧ o1.format = o.format := by
    obtain ⟨s, _, _, _, _, _, rfl⟩ := (C43_append_bss o o1 sec n align off).1 h
    exact ⟨rfl, rfl⟩
  unfold Object.addSymbolBss
  simp only
  rw [← hd, h, Res.ok_bind]
  simp only
  rw [(C61_set_symbol_data o1 _ sym sec off n y (by rw [he.1]; exact hy) (by rw [he.2]; exact ht)).2
    ⟨hu, rfl⟩, Res.ok_bind]

/-- **C61.** `symbol_section_and_offset` is the symbol itself for a section symbol, nothing for a symbol
without section, and otherwise the section symbol of its section with the value of the symbol. -/
theorem C61_section_and_offset (o : Object) (sym : Nat) (y : Symbol) (hy : o.symbols[sym]? = some y) :
    (y.kind = .sectionSym → o.symbolSectionAndOffset sym = .ok (some (sym, 0), o)) ∧
    (y.kind ≠ .sectionSym → (∀ i, y.section_ ≠ .inSec i) → o.symbolSectionAndOffset sym = .ok (none, o)) ∧
    (y.kind ≠ .sectionSym → ∀ i k o', y.section_ = .inSec i → o.sectionSymbol i = .ok (k, o') →
      o.symbolSectionAndOffset sym = .ok (some (k, y.value), o')) := by
  unfold Object.symbolSectionAndOffset
  simp only [hy]
  refine ⟨fun h => by rw [if_pos h], fun h hn => ?_, fun h i k o' hi hs => ?_⟩
  · rw [if_neg h]
    cases hq : y.section_ <;> simp_all [SymSection.id?]
  · rw [if_neg h, hi]
    simp only [SymSection.id?, hs, Res.ok_bind]

/-- **C61.** By default, names get the prefix `_` exactly in Mach-O objects and in COFF objects for
i386. -/
theorem C61_mangling (f : Format) (a : Arch) (e : Endianness) (s : Symbol) (hs : Named s)
    (hd : s.section_ = .undefined ∨ s.scope ≠ .unknown) :
    ∃ o' y, (Object.new f a e).addSymbol s = .ok (0, o') ∧ o'.symbols = [y] ∧
      y.name = (if f = .macho ∨ (f = .coff ∧ a = .i386) then (95 : UInt8) :: s.name else s.name) := by
  have hk : s.kind ≠ .sectionSym := by obtain ⟨_, h | h | h⟩ := hs <;> rw [h] <;> simp
  obtain ⟨id, o', y, h1, rfl, h3, _, _, h5, _⟩ := C61_add_symbol (Object.new f a e) s hk hd
  refine ⟨o', y, h1, h3, ?_⟩
  rw [(h5 hs).1]
  cases f <;> cases a <;> rfl

private theorem tlv_reloc (o : Object) (i off sym asize : Nat) (s : Section) (hf : o.format = .macho)
    (hs : o.sections[i]? = some s)
    (ha : (asize = 8 ∧ (o.arch = .x86_64 ∨ o.arch = .aarch64)) ∨ (asize = 4 ∧ (o.arch = .i386 ∨ o.arch = .arm))) :
    o.addRelocation i off sym 0 (.generic .absolute .generic (asize * 8)) none =
      (.ok (), { o with
        sections := o.sections.set i { s with relocs := s.relocs ++
          [⟨off, sym, none, 0, .macho 0 false (if asize = 8 then 3 else 2)⟩] } }) := by
  unfold Object.addRelocation
  rw [if_neg (by simp)]
  have hl : machoLength o.arch (asize * 8) = some (if asize = 8 then 3 else 2) := by
    obtain ⟨rfl, h | h⟩ | ⟨rfl, h | h⟩ := ha <;> rw [h] <;> rfl
  have ht : machoType o.arch .absolute .generic = some (false, 0) := by
    obtain ⟨rfl, h | h⟩ | ⟨rfl, h | h⟩ := ha <;> rw [h] <;> rfl
  have htr : o.translate Object.coffStub i ⟨off, sym, none, 0, .generic .absolute .generic (asize * 8)⟩ =
      (.ok ⟨off, sym, none, 0, .macho 0 false (if asize = 8 then 3 else 2)⟩, o) := by
    unfold Object.translate
    simp only [hf, Object.machoTranslate, hl, ht]
    rw [if_neg (by simp)]
  have hx : adjustAddend o.format o.arch ⟨off, sym, none, 0, .macho 0 false (if asize = 8 then 3 else 2)⟩ =
      .ok (machoImplicit o.arch 0, ⟨off, sym, none, 0, .macho 0 false (if asize = 8 then 3 else 2)⟩) := by
    rw [hf]; rfl
  unfold Object.addRelocInternal Object.addRelocWith
  rw [htr]
  simp only
  unfold Object.finishReloc
  rw [hx]
  simp only [hs]
  rw [if_neg (by simp)]
  rfl

private theorem sectionId_misc (o : Object) (ss : StdSection) :
    (o.sectionId ss).2.symbols = o.symbols ∧ (o.sectionId ss).2.format = o.format ∧
    (o.sectionId ss).2.arch = o.arch ∧ (o.sectionId ss).2.tlvBootstrap = o.tlvBootstrap ∧
    (o.sectionId ss).2.mangling = o.mangling := by
  unfold Object.sectionId
  cases o.std ss with
  | some i => exact ⟨rfl, rfl, rfl, rfl, rfl⟩
  | none =>
    unfold Object.setSectionFlags
    simp only
    split <;> exact ⟨rfl, rfl, rfl, rfl, rfl⟩

private theorem run_append (o o1 o2 : Object) (p q : List Op) (h : run o p = some o1) (h2 : run o1 q = some o2) :
    run o (p ++ q) = some o2 := by
  induction p generalizing o with
  | nil => simp only [run, Option.some.injEq] at h; subst h; exact h2
  | cons x xs ih =>
    simp only [run, List.cons_append] at h ⊢
    cases hx : step o x with
    | none => rw [hx] at h; simp at h
    | some o3 => rw [hx] at h; exact ih o3 h

private theorem reachable_raw (o : Object) (h : Reachable o) (y : Symbol) : Reachable (o.addRawSymbol y).2 := by
  obtain ⟨f, a, e, p, hp⟩ := h
  refine ⟨f, a, e, p ++ [.addFileSymbol [], .symbolMut o.symbols.length y], run_append _ _ _ _ _ hp ?_⟩
  simp [run, step, Object.addFileSymbol, Object.addRawSymbol, Object.setSymbol]

/-- **C61.** Attaching data to a thread-local symbol of a Mach-O object creates a three-word descriptor in
the thread variables section: the symbol refers to the descriptor, the data to a new symbol with
`$tlv$init` appended to the name, and the first and third word of the descriptor get relocations against
`_tlv_bootstrap` and the new symbol. -/
theorem C61_thread_var (o o' : Object) (sym sec offset size asize : Nat) (y : Symbol)
    (hr : Reachable o)
    (hf : o.format = .macho) (hy : o.symbols[sym]? = some y) (ht : y.kind = .tls)
    (ha : (asize = 8 ∧ (o.arch = .x86_64 ∨ o.arch = .aarch64)) ∨ (asize = 4 ∧ (o.arch = .i386 ∨ o.arch = .arm)))
    (h : o.setSymbolData sym sec offset size = .ok o') :
    ∃ v s off boot y1 y2,
      o'.sections[v]? = some s ∧ IsStd o .tlsVariables s ∧
      asize ∣ off ∧ (s.data.drop off).take (3 * asize) = List.replicate (3 * asize) 0 ∧
      o'.symbols[sym]? = some { y with section_ := .inSec v, value := off, size := 3 * asize } ∧
      o'.symbols[o.symbols.length]? = some y1 ∧
      y1.name = y.name ++ ascii "$tlv$init" ∧ y1.kind = .tls ∧ y1.scope = .compilation ∧
      y1.section_ = .inSec sec ∧ y1.value = offset ∧ y1.size = size ∧
      o'.tlvBootstrap = some boot ∧ (o.tlvBootstrap = none → o'.symbols[boot]? = some y2 ∧
        y2.name = (match o.mangling with
          | .coffI386 | .macho => (95 : UInt8) :: tlvName
          | _ => tlvName) ∧ y2.section_ = .undefined) ∧
      ∃ rs, s.relocs = rs ++ [⟨off, boot, none, 0, .macho 0 false (if asize = 8 then 3 else 2)⟩,
        ⟨off + asize * 2, o.symbols.length, none, 0, .macho 0 false (if asize = 8 then 3 else 2)⟩] := by
  have hsz : o.arch.addressSize = some asize := by
    obtain ⟨rfl, h | h⟩ | ⟨rfl, h | h⟩ := ha <;> rw [h] <;> rfl
  unfold Object.setSymbolData at h
  simp only [hy] at h
  by_cases hu : y.scope = .unknown
  · rw [if_pos hu] at h; simp at h
  rw [if_neg hu, if_pos hf] at h
  unfold Object.addThreadVar at h
  simp only [hy] at h
  rw [if_neg (by simp [ht])] at h
  simp only [hsz] at h
  generalize hi : o.addRawSymbol _ = init at h
  have hi1 : init.1 = o.symbols.length := by rw [← hi]; rfl
  have hir : Reachable init.2 := by rw [← hi]; exact reachable_raw o hr _
  have hi3 : ∃ y1, init.2 = { o with symbols := o.symbols ++ [y1] } ∧
      y1.name = y.name ++ ascii "$tlv$init" ∧ y1.kind = .tls ∧ y1.scope = .compilation := by
    rw [← hi]; exact ⟨_, rfl, by rfl, rfl, rfl⟩
  obtain ⟨y1, hi2, hn1, hk1, hs1⟩ := hi3
  clear hi
  have hm := sectionId_misc init.2 .tlsVariables
  have hsec : ∃ s0, (init.2.sectionId .tlsVariables).2.sections[(init.2.sectionId .tlsVariables).1]? = some s0 ∧
      IsStd o .tlsVariables s0 := by
    have hstd : ∀ s, IsStd init.2 .tlsVariables s → IsStd o .tlsVariables s := by rw [hi2]; exact fun _ h => h
    obtain ⟨i, s, he, hs, h1, _⟩ | ⟨_, he, s, hs, h1, _⟩ := C60_section_id init.2 hir .tlsVariables
    · rw [he]; exact ⟨s, hs, hstd s h1⟩
    · rw [he, hs]; exact ⟨s, List.getElem?_concat_length, hstd s h1⟩
  generalize hsi : init.2.sectionId .tlsVariables = sec' at h hm hsec
  clear hsi
  obtain ⟨s0, hs0, hstd0⟩ := hsec
  match hd : sec'.2.appendSectionData sec'.1 (List.replicate (asize * 3) 0) asize with
  | .err => rw [hd] at h; simp at h
  | .panic => rw [hd] at h; simp at h
  | .ok (off, o2) =>
    rw [hd] at h
    obtain ⟨s1, hs1', _, _, hp, ho, _, he2⟩ := (C43_append_data _ _ _ _ _ _).1 hd
    rw [hs0, Option.some.injEq] at hs1'
    subst hs1'
    simp only [Res.ok_bind] at h
    have hboot : ∃ b o3, o2.tlvBootstrapId = .ok (b, o3) ∧ o3.sections = o2.sections ∧ o3.format = .macho ∧
        o3.arch = o.arch ∧ o3.tlvBootstrap = some b ∧
        (∃ ys, o3.symbols = o.symbols ++ [y1] ++ ys) ∧
        (o.tlvBootstrap = none → ∃ y2, o3.symbols[b]? = some y2 ∧
          b = o.symbols.length + 1 ∧
          y2.name = (match o.mangling with
          | .coffI386 | .macho => (95 : UInt8) :: tlvName
          | _ => tlvName) ∧ y2.section_ = .undefined) := by
      have e1 : o2.symbols = o.symbols ++ [y1] := by rw [he2]; simp only; rw [hm.1, hi2]
      have e2 : o2.format = .macho := by rw [he2]; simp only; rw [hm.2.1, hi2]; exact hf
      have e3 : o2.arch = o.arch := by rw [he2]; simp only; rw [hm.2.2.1, hi2]
      have e4 : o2.tlvBootstrap = o.tlvBootstrap := by rw [he2]; simp only; rw [hm.2.2.2.1, hi2]
      have e5 : o2.mangling = o.mangling := by rw [he2]; simp only; rw [hm.2.2.2.2, hi2]
      unfold Object.tlvBootstrapId
      cases hb : o2.tlvBootstrap with
      | some b =>
        refine ⟨b, o2, rfl, rfl, e2, e3, hb, ⟨[], by rw [e1]; simp⟩, ?_⟩
        intro hn; rw [← e4, hb] at hn; cases hn
      | none =>
        simp only
        unfold Object.addSymbol
        rw [if_neg (by simp), if_neg (by simp), if_pos (by decide), Res.ok_bind]
        refine ⟨_, _, rfl, rfl, e2, e3, rfl, ⟨[_], by simp only [Object.addRawSymbol]; rw [e1]⟩, ?_⟩
        intro _
        refine ⟨_, List.getElem?_concat_length, by simp only [Object.addRawSymbol]; rw [e1]; simp, ?_, ?_⟩
        · rw [e5]; cases o.mangling <;> rfl
        · rw [e5]; cases o.mangling <;> rfl
    obtain ⟨b, o3, hb1, hb2, hb3, hb4, hb5, ⟨ys, hb6⟩, hb7⟩ := hboot
    rw [hb1] at h
    simp only [Res.ok_bind] at h
    have hs3 : o3.sections[sec'.1]? = some
        { s0 with data := s0.data ++ List.replicate (off - s0.data.length) 0 ++ List.replicate (asize * 3) 0,
                  size := off + (List.replicate (asize * 3) (0 : UInt8)).length, align := max s0.align asize } := by
      rw [hb2, he2]; exact getElem_set_self hs0
    rw [tlv_reloc o3 sec'.1 off b asize _ hb3 hs3 (by rw [hb4]; exact ha)] at h
    simp only at h
    rw [tlv_reloc _ sec'.1 (off + asize * 2) init.1 asize _ (by exact hb3) (getElem_set_self hs3)
      (by simp only [hb4]; exact ha)] at h
    have hlt := getElem_lt hy
    have hys : o3.symbols[sym]? = some y := by
      rw [hb6, List.append_assoc, List.getElem?_append_left hlt]; exact hy
    have hyi : (o3.symbols.set sym { y with value := off, size := asize * 3, section_ := .inSec sec'.1 })[init.1]? =
        some y1 := by
      rw [List.getElem?_set_ne (by omega), hb6, hi1, List.append_assoc, List.getElem?_append_right (Nat.le_refl _)]
      simp
    simp only [hys, Res.ok_bind, Object.setSymbol, hyi, Res.ok.injEq] at h
    subst h
    have hof : off = Obj.Spec.roundUp s0.data.length asize := ho
    have hdl : asize ∣ off := by
      obtain ⟨rfl, _⟩ | ⟨rfl, _⟩ := ha
      · rw [hof]; exact Nat.dvd_of_mod_eq_zero (by unfold Obj.Spec.roundUp; omega)
      · rw [hof]; exact Nat.dvd_of_mod_eq_zero (by unfold Obj.Spec.roundUp; omega)
    have hle : s0.data.length ≤ off := by rw [hof]; exact le_roundUp (by obtain ⟨k, rfl⟩ := hp; exact Nat.two_pow_pos k)
    have hset : ∀ (A B : Section) (l : List Section) (x : Section), l[sec'.1]? = some x →
        ((l.set sec'.1 A).set sec'.1 B)[sec'.1]? = some B := by
      intro A B l x hx
      exact getElem_set_self (getElem_set_self hx)
    refine ⟨sec'.1, _, off, b, { y1 with value := offset, size := size, section_ := .inSec sec },
      (o3.symbols[b]?).getD y1, hset _ _ _ _ hs3, hstd0, hdl, ?_, ?_, ?_, hn1, hk1, hs1, rfl, rfl, rfl, hb5, ?_,
      s0.relocs, ?_⟩
    · simp only
      rw [List.drop_append_of_le_length (by simp; omega), List.drop_of_length_le (by simp; omega)]
      simp [Nat.mul_comm]
    · rw [List.getElem?_set_ne (by omega), Nat.mul_comm 3]
      exact getElem_set_self hys
    · rw [← hi1]; exact getElem_set_self hyi
    · intro hn
      obtain ⟨y2, hy2, hbi, h1, h2⟩ := hb7 hn
      rw [hy2]
      refine ⟨?_, h1, h2⟩
      rw [List.getElem?_set_ne (by omega), List.getElem?_set_ne (by omega)]
      exact hy2
    · rw [hi1]; simp

private def tls : Symbol :=
  { name := [102], value := 0, size := 0, kind := .tls, scope := .dynamic, weak := false,
    section_ := .undefined, flags := .none }

example : (run (Object.new .macho .aarch64 .little) [.addSymbol tls, .addSection [] [46] .tls,
    .addSymbolData 0 0 [1, 2, 3, 4] 4]).map
      (fun o => (o.sections.map (·.relocs.length), o.symbols.map (·.section_), o.symbols.map (·.size))) =
    some ([0, 2], [.inSec 1, .inSec 0, .undefined], [24, 4, 0]) := by decide

end Obj.Props
