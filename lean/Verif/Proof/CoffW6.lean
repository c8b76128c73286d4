import Verif.Proof.CoffW5

/-! Reading the file written by `coff_write`. -/

namespace Obj.CoffW
open Obj Obj.Reserve Obj.Parts Obj.Spec Obj.Spec.CoffO Obj.Spec.CoffS
open Obj.ElfW (check tabAdd check_ok length_of_getElem?)

/-! ## Positions -/

theorem split_at' {α : Type} {l : List α} {i : Nat} {x : α} (h : l[i]? = some x) : l = l.take i ++ x :: l.drop (i + 1) := by
  obtain ⟨hi, rfl⟩ := List.getElem?_eq_some_iff.1 h
  rw [List.getElem_cons_drop, List.take_append_drop]

section
variable {crc : List UInt8 → Nat} {o : W.Object} {sub : Option SubArch} {flags : Option Nat} {p : Plan} {w : Wtr} {sels : List Sel}
  {size : Nat} {t : StrTab} {strs : List UInt8} {machine : Nat} {data : List UInt8}

theorem Image.hdrs_len (h : Image crc o sub flags p w sels size t strs machine data) :
    ((o.sections.zip p.secs).flatMap (hdrBytes t)).length = 40 * o.sections.length := by
  rw [length_flatMap_hdr (fun x hx => by obtain ⟨-, -, -, g⟩ := h.headers x hx; exact g), List.length_zip, h.planned.length]
  simp

theorem Image.at_header (h : Image crc o sub flags p w sels size t strs machine data) :
    At data 0 (Coff.FileHeader.encode ⟨machine, o.sections.length, 0, symtabAt o, total o, 0, flags.getD 0⟩) := by
  rw [h.bytes]
  exact at_emit [] _ 1 _ []

theorem Image.at_headers (h : Image crc o sub flags p w sels size t strs machine data) :
    At data 20 ((o.sections.zip p.secs).flatMap (hdrBytes t)) := by
  rw [h.bytes]
  have := at_emit [(1, Coff.FileHeader.encode ⟨machine, o.sections.length, 0, symtabAt o, total o, 0, flags.getD 0⟩)]
    (o.sections.flatMap (secParts p.syms) ++ [(1, imgs (allEntries crc o sels t 0 o.symbols)), (1, Coff.strtabBytes size strs)])
    1 ((o.sections.zip p.secs).flatMap (hdrBytes t)) []
  simp only [sizes, List.map_cons, List.map_nil, endOf, up_one, length_fileHeader, List.length_nil, Nat.zero_add] at this
  exact this

/-- The parts before the sections. -/
def headParts (o : W.Object) (machine : Nat) (flags : Option Nat) (p : Plan) (t : StrTab) : List (Nat × List UInt8) :=
  [(1, Coff.FileHeader.encode ⟨machine, o.sections.length, 0, symtabAt o, total o, 0, flags.getD 0⟩),
   (1, (o.sections.zip p.secs).flatMap (hdrBytes t))]

theorem Image.end_head (h : Image crc o sub flags p w sels size t strs machine data) :
    endOf 0 (sizes (headParts o machine flags p t)) = 20 + 40 * o.sections.length := by
  simp only [headParts, sizes, List.map_cons, List.map_nil, endOf, up_one, length_fileHeader, Nat.zero_add, h.hdrs_len]

/-- The position of section `i`. -/
def secAt (o : W.Object) (i : Nat) : Nat := endOf (20 + 40 * o.sections.length) ((o.sections.take i).flatMap secSizes)

theorem Image.at_part (h : Image crc o sub flags p w sels size t strs machine data) {i : Nat} {s : W.Section} (hs : o.sections[i]? = some s)
    {a b : List (Nat × List UInt8)} {al : Nat} {x : List UInt8} (hp : secParts p.syms s = a ++ (al, x) :: b) :
    At data (up (endOf (secAt o i) (sizes a)) al) x := by
  rw [h.bytes]
  have e : fileParts crc o machine flags p sels size t strs = (headParts o machine flags p t ++ (o.sections.take i).flatMap (secParts p.syms) ++ a) ++
      (al, x) :: (b ++ (o.sections.drop (i + 1)).flatMap (secParts p.syms) ++
        [(1, imgs (allEntries crc o sels t 0 o.symbols)), (1, Coff.strtabBytes size strs)]) := by
    have e1 : o.sections.flatMap (secParts p.syms) = (o.sections.take i).flatMap (secParts p.syms) ++ (a ++ (al, x) :: b) ++
        (o.sections.drop (i + 1)).flatMap (secParts p.syms) := by
      rw [← hp]
      conv => lhs; rw [split_at' hs]
      simp
    unfold fileParts
    rw [e1]
    simp [headParts]
  rw [e]
  have := at_emit (headParts o machine flags p t ++ (o.sections.take i).flatMap (secParts p.syms) ++ a)
    (b ++ (o.sections.drop (i + 1)).flatMap (secParts p.syms) ++ [(1, imgs (allEntries crc o sels t 0 o.symbols)), (1, Coff.strtabBytes size strs)])
    al x []
  rw [sizes_append, sizes_append, endOf_append, endOf_append, List.length_nil, h.end_head, sizes_flatMap] at this
  exact this

theorem Image.at_data (h : Image crc o sub flags p w sels size t strs machine data) {i : Nat} {s : W.Section} (hs : o.sections[i]? = some s) :
    At data (secOff (secAt o i) s).1 s.data := by
  by_cases hd : s.data = []
  · rw [hd]; simp [At, slice]
  · have := h.at_part hs (a := []) (b := if s.relocs = [] then [] else [(1, relBytes p.syms s.relocs)]) (al := 4) (x := s.data)
      (by unfold secParts; rw [if_neg hd]; rfl)
    unfold secOff
    rw [if_neg hd]
    exact this

theorem Image.at_relocs (h : Image crc o sub flags p w sels size t strs machine data) {i : Nat} {s : W.Section} (hs : o.sections[i]? = some s)
    (hr : s.relocs ≠ []) : At data (secOff (secAt o i) s).2 (relBytes p.syms s.relocs) := by
  have := h.at_part hs (a := if s.data = [] then [] else [(4, s.data)]) (b := []) (al := 1) (x := relBytes p.syms s.relocs)
    (by unfold secParts; rw [if_neg hr])
  rw [up_one] at this
  unfold secOff
  rw [if_neg hr]
  have e : sizes (if s.data = [] then [] else [(4, s.data)]) = if s.data = [] then [] else [(4, s.data.length)] := by split <;> rfl
  rw [e] at this
  exact this

theorem Image.entries_len (h : Image crc o sub flags p w sels size t strs machine data) (hv : Valid o) :
    (imgs (allEntries crc o sels t 0 o.symbols)).length = 18 * total o := by
  have hnames := names_len hv h.planned
  rw [length_imgs (entries_names crc sels o.symbols 0 fun s hs x hx => (hnames x (mem_allNames_sym hs hx)).2.2),
    records_allEntries crc o sels t h.planned.selsOk.length o.symbols 0 hv.symbolSection]
  rfl

theorem Image.at_symbols (h : Image crc o sub flags p w sels size t strs machine data) (hv : Valid o) :
    At data (symtabAt o) (imgs (allEntries crc o sels t 0 o.symbols) ++ Coff.strtabBytes size strs) ∧
    data.length = symtabAt o + 18 * total o + size := by
  have hb := h.bytes
  have e : fileParts crc o machine flags p sels size t strs = headParts o machine flags p t ++ o.sections.flatMap (secParts p.syms) ++
    [(1, imgs (allEntries crc o sels t 0 o.symbols)), (1, Coff.strtabBytes size strs)] := rfl
  rw [e, emit_append] at hb
  have hl : (emit [] (headParts o machine flags p t ++ o.sections.flatMap (secParts p.syms))).length = symtabAt o := by
    rw [length_emit, sizes_append, endOf_append, List.length_nil, h.end_head, sizes_flatMap]; rfl
  generalize emit [] (headParts o machine flags p t ++ o.sections.flatMap (secParts p.syms)) = X at hb hl
  simp only [emit, pad_of_le_one _ 1 (by decide)] at hb
  have hsl : (Coff.strtabBytes size strs).length = size := by
    have := h.planned.sizeEq
    unfold Coff.strtabBytes; simp; omega
  constructor
  · rw [hb, ← hl, List.append_assoc]
    have := at_mid X (imgs (allEntries crc o sels t 0 o.symbols) ++ Coff.strtabBytes size strs) []
    rw [List.append_nil] at this
    exact this
  · rw [hb, List.length_append, List.length_append, hl, hsl, h.entries_len hv]

theorem Image.length_lt (h : Image crc o sub flags p w sels size t strs machine data) (hv : Valid o) : data.length < 2 ^ 63 := by
  have h1 := (h.at_symbols hv).2
  have h2 := (symtab_room o hv).1
  have h3 := h.planned.lt
  omega

/-! ## The file header -/

theorem machineOf_lt {a : Arch} {s : Option SubArch} {e : Endianness} {m : Nat} (h : machineOf a s e = .ok m) : m < 2 ^ 16 := by
  have h1 : ∀ a e m, coffMachine a e = .ok m → m < 2 ^ 16 := by
    intro a e m h
    cases a <;> cases e <;> simp [coffMachine] at h <;> subst h <;> decide
  unfold machineOf at h
  split at h
  · exact h1 _ _ _ h
  · split at h
    · cases h; decide
    · simp at h
  · simp at h

theorem fileHeader_decode (h : Coff.FileHeader) (h1 : h.machine < 2 ^ 16) (h2 : h.numberOfSections < 2 ^ 16) (h3 : h.timeDateStamp < 2 ^ 32)
    (h4 : h.pointerToSymbolTable < 2 ^ 32) (h5 : h.numberOfSymbols < 2 ^ 32) (h6 : h.sizeOfOptionalHeader < 2 ^ 16) (h7 : h.characteristics < 2 ^ 16)
    : Coff.FileHeader.decode h.encode = h := by
  unfold Coff.FileHeader.decode Coff.FileHeader.encode
  have hz := fun w v fs h => field_encode_zero .little w v fs [] h
  have hsu := fun w v fs off w' h => field_encode_succ .little w v fs [] off w' h
  simp only [List.append_nil] at hz hsu
  have g0 : field .little (Obj.encode .little [(2, h.machine), (2, h.numberOfSections), (4, h.timeDateStamp), (4, h.pointerToSymbolTable), (4, h.numberOfSymbols), (2, h.sizeOfOptionalHeader), (2, h.characteristics)]) 0 2 = h.machine := by
    iterate 0 rw [hsu _ _ _ _ _ (by decide)]
    exact hz _ _ _ (by omega)
  have g1 : field .little (Obj.encode .little [(2, h.machine), (2, h.numberOfSections), (4, h.timeDateStamp), (4, h.pointerToSymbolTable), (4, h.numberOfSymbols), (2, h.sizeOfOptionalHeader), (2, h.characteristics)]) 2 2 = h.numberOfSections := by
    iterate 1 rw [hsu _ _ _ _ _ (by decide)]
    exact hz _ _ _ (by omega)
  have g2 : field .little (Obj.encode .little [(2, h.machine), (2, h.numberOfSections), (4, h.timeDateStamp), (4, h.pointerToSymbolTable), (4, h.numberOfSymbols), (2, h.sizeOfOptionalHeader), (2, h.characteristics)]) 4 4 = h.timeDateStamp := by
    iterate 2 rw [hsu _ _ _ _ _ (by decide)]
    exact hz _ _ _ (by omega)
  have g3 : field .little (Obj.encode .little [(2, h.machine), (2, h.numberOfSections), (4, h.timeDateStamp), (4, h.pointerToSymbolTable), (4, h.numberOfSymbols), (2, h.sizeOfOptionalHeader), (2, h.characteristics)]) 8 4 = h.pointerToSymbolTable := by
    iterate 3 rw [hsu _ _ _ _ _ (by decide)]
    exact hz _ _ _ (by omega)
  have g4 : field .little (Obj.encode .little [(2, h.machine), (2, h.numberOfSections), (4, h.timeDateStamp), (4, h.pointerToSymbolTable), (4, h.numberOfSymbols), (2, h.sizeOfOptionalHeader), (2, h.characteristics)]) 12 4 = h.numberOfSymbols := by
    iterate 4 rw [hsu _ _ _ _ _ (by decide)]
    exact hz _ _ _ (by omega)
  have g5 : field .little (Obj.encode .little [(2, h.machine), (2, h.numberOfSections), (4, h.timeDateStamp), (4, h.pointerToSymbolTable), (4, h.numberOfSymbols), (2, h.sizeOfOptionalHeader), (2, h.characteristics)]) 16 2 = h.sizeOfOptionalHeader := by
    iterate 5 rw [hsu _ _ _ _ _ (by decide)]
    exact hz _ _ _ (by omega)
  have g6 : field .little (Obj.encode .little [(2, h.machine), (2, h.numberOfSections), (4, h.timeDateStamp), (4, h.pointerToSymbolTable), (4, h.numberOfSymbols), (2, h.sizeOfOptionalHeader), (2, h.characteristics)]) 18 2 = h.characteristics := by
    iterate 6 rw [hsu _ _ _ _ _ (by decide)]
    exact hz _ _ _ (by omega)
  rw [g0, g1, g2, g3, g4, g5, g6]

/-- The header that is read. -/
def hdrOf (o : W.Object) (machine : Nat) : Coff.Header := ⟨false, machine, o.sections.length, symtabAt o, total o⟩

theorem Image.header (h : Image crc o sub flags p w sels size t strs machine data) (hv : Valid o) (hf : ∀ c, flags = some c → c < 2 ^ 16) :
    Coff.parseHeader false data 0 = .ok (hdrOf o machine, 20) ∧
    (Coff.FileHeader.decode (data.take 20)).characteristics = flags.getD 0 := by
  have ha := h.at_header
  obtain ⟨r1, r2, r3⟩ := symtab_room o hv
  have hd := fileHeader_decode ⟨machine, o.sections.length, 0, symtabAt o, total o, 0, flags.getD 0⟩ (machineOf_lt h.machineOk) hv.sections (by show 0 < _; decide)
    (by show symtabAt o < _; omega) (by show total o < _; omega) (by show 0 < _; decide) (by
      show flags.getD 0 < _
      cases hfl : flags with
      | none => decide
      | some c => exact hf c hfl)
  generalize hFH : Coff.FileHeader.encode ⟨machine, o.sections.length, 0, symtabAt o, total o, 0, flags.getD 0⟩ = FH at ha hd
  have hl : FH.length = 20 := by rw [← hFH]; exact length_fileHeader _
  have hrd := Elf.at_read ha
  rw [hl] at hrd
  have htk : data.take 20 = FH := by
    unfold At slice at ha
    rw [hl, List.drop_zero] at ha; exact ha
  constructor
  · show Coff.parseSmall data 0 = _
    unfold Coff.parseSmall ReadRef.read ReadRef.readBytes
    rw [hrd]
    simp only
    rw [hd, Nat.mod_eq_of_lt (by omega), if_neg (by show ¬ U64 ≤ 0 + 20 + 0; decide)]
    rfl
  · rw [htk, hd]

theorem Image.sections (h : Image crc o sub flags p w sels size t strs machine data) (hv : Valid o) :
    Coff.parseSections (hdrOf o machine) data 20 = .ok ((o.sections.zip p.secs).map fun x => Coff.Section.decode (hdrBytes t x)) := by
  have ha := h.at_headers
  have hl : (o.sections.zip p.secs).length = o.sections.length := by rw [List.length_zip, h.planned.length]; simp
  have hs := hv.sections
  have := Elf.readSliceAt_flatMap (hdrBytes t) 40 (o.sections.zip p.secs) (fun x hx => by obtain ⟨-, -, -, g⟩ := h.headers x hx; exact g)
    (by have := h.length_lt hv; omega) ha
  unfold Coff.parseSections
  rw [hl] at this
  show (Elf.readSliceAt data 20 40 o.sections.length).bind _ = _
  rw [this]
  simp only [Res.ok_bind, List.map_map]
  rfl

end

end Obj.CoffW
