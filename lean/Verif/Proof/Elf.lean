import Verif.Spec.Elf
import Verif.Spec.FileKind
import Verif.Proof.Rich
import Verif.Proof.Note
import Verif.Proof.Endian
import Verif.Proof.ReadRef

namespace Obj.Elf
open Obj Obj.Spec Obj.Spec.ElfS

theorem pow_w (c : Cfg) : 256 ^ c.w = wordMax c.is64 := by
  unfold Cfg.w wordMax; cases c.is64 <;> decide

theorem Shdr.length_encode (c : Cfg) (s : Shdr) : (s.encode c).length = c.shdrSize := by
  unfold Shdr.encode Cfg.shdrSize Cfg.w; cases c.is64 <;> simp

theorem Phdr.length_encode (c : Cfg) (s : Phdr) : (s.encode c).length = c.phdrSize := by
  unfold Phdr.encode Cfg.phdrSize; cases c.is64 <;> simp

theorem Sym.length_encode (c : Cfg) (s : Sym) : (s.encode c).length = c.symSize := by
  unfold Sym.encode Cfg.symSize; cases c.is64 <;> simp

theorem Chdr.length_encode (c : Cfg) (s : Chdr) : (s.encode c).length = c.chdrSize := by
  unfold Chdr.encode Cfg.chdrSize; cases c.is64 <;> simp

theorem Ehdr.length_encode (c : Cfg) (h : Ehdr) : (h.encode c).length = c.ehdrSize := by
  unfold Ehdr.encode Cfg.ehdrSize Cfg.w identBytes; cases c.is64 <;> simp

theorem Shdr.decode_encode (c : Cfg) (s : Shdr) (h : ShdrFits c.is64 s) (tl : List UInt8) :
    Shdr.decode c (s.encode c ++ tl) = s := by
  have hd := Obj.decode_encode c.en [(4, s.name), (4, s.type), (c.w, s.flags), (c.w, s.addr), (c.w, s.offset), (c.w, s.size),
    (4, s.link), (4, s.info), (c.w, s.addralign), (c.w, s.entsize)] tl (by
      have := h.name; have := h.type; have := h.flags; have := h.addr; have := h.offset; have := h.size
      have := h.link; have := h.info; have := h.addralign; have := h.entsize
      simp only [Fits, List.mem_cons, List.not_mem_nil, or_false, forall_eq_or_imp, forall_eq, pow_w]
      simp_all)
  unfold Shdr.decode shdrWidths Shdr.encode
  simp only [List.map_cons, List.map_nil] at hd
  rw [hd]; rfl

theorem Phdr.decode_encode (c : Cfg) (p : Phdr) (h : PhdrFits c.is64 p) (tl : List UInt8) :
    Phdr.decode c (p.encode c ++ tl) = p := by
  unfold Phdr.decode Phdr.encode
  obtain ⟨h1, h2, h3, h4, h5, h6, h7, h8⟩ := h
  unfold wordMax at *
  cases hc : c.is64
  · simp only [hc, Bool.false_eq_true, if_false] at *
    have hd := Obj.decode_encode c.en [(4, p.type), (4, p.offset), (4, p.vaddr), (4, p.paddr), (4, p.filesz),
      (4, p.memsz), (4, p.flags), (4, p.align)] tl (by
        simp only [Fits, List.mem_cons, List.not_mem_nil, or_false, forall_eq_or_imp, forall_eq]
        simp_all)
    simp only [List.map_cons, List.map_nil] at hd
    rw [hd]; rfl
  · simp only [hc, if_true] at *
    have hd := Obj.decode_encode c.en [(4, p.type), (4, p.flags), (8, p.offset), (8, p.vaddr), (8, p.paddr), (8, p.filesz),
      (8, p.memsz), (8, p.align)] tl (by
        simp only [Fits, List.mem_cons, List.not_mem_nil, or_false, forall_eq_or_imp, forall_eq]
        simp_all)
    simp only [List.map_cons, List.map_nil] at hd
    rw [hd]; rfl

theorem Sym.decode_encode (c : Cfg) (s : Sym) (h : SymFits c.is64 s) (tl : List UInt8) :
    Sym.decode c (s.encode c ++ tl) = s := by
  unfold Sym.decode Sym.encode
  obtain ⟨h1, h2, h3, h4, h5, h6⟩ := h
  unfold wordMax at *
  cases hc : c.is64
  · simp only [hc, Bool.false_eq_true, if_false] at *
    have hd := Obj.decode_encode c.en [(4, s.name), (4, s.value), (4, s.size), (1, s.info), (1, s.other), (2, s.shndx)] tl (by
        simp only [Fits, List.mem_cons, List.not_mem_nil, or_false, forall_eq_or_imp, forall_eq]
        simp_all)
    simp only [List.map_cons, List.map_nil] at hd
    rw [hd]; rfl
  · simp only [hc, if_true] at *
    have hd := Obj.decode_encode c.en [(4, s.name), (1, s.info), (1, s.other), (2, s.shndx), (8, s.value), (8, s.size)] tl (by
        simp only [Fits, List.mem_cons, List.not_mem_nil, or_false, forall_eq_or_imp, forall_eq]
        simp_all)
    simp only [List.map_cons, List.map_nil] at hd
    rw [hd]; rfl

theorem Chdr.decode_encode (c : Cfg) (s : Chdr) (h1 : s.type < 2 ^ 32) (h2 : s.size < wordMax c.is64)
    (h3 : s.addralign < wordMax c.is64) (tl : List UInt8) :
    Chdr.decode c (s.encode c ++ tl) = s := by
  unfold Chdr.decode Chdr.encode
  unfold wordMax at *
  cases hc : c.is64
  · simp only [hc, Bool.false_eq_true, if_false] at *
    have hd := Obj.decode_encode c.en [(4, s.type), (4, s.size), (4, s.addralign)] tl (by
        simp only [Fits, List.mem_cons, List.not_mem_nil, or_false, forall_eq_or_imp, forall_eq]
        simp_all)
    simp only [List.map_cons, List.map_nil] at hd
    rw [hd]; rfl
  · simp only [hc, if_true] at *
    have hd := Obj.decode_encode c.en [(4, s.type), (4, 0), (8, s.size), (8, s.addralign)] tl (by
        simp only [Fits, List.mem_cons, List.not_mem_nil, or_false, forall_eq_or_imp, forall_eq]
        simp_all)
    simp only [List.map_cons, List.map_nil] at hd
    rw [hd]; rfl

/-- The fields of a file header fit. -/
structure EhdrFits (c : Cfg) (h : Ehdr) : Prop where
  type : h.type < 2 ^ 16
  machine : h.machine < 2 ^ 16
  version : h.version < 2 ^ 32
  entry : h.entry < wordMax c.is64
  phoff : h.phoff < wordMax c.is64
  shoff : h.shoff < wordMax c.is64
  flags : h.flags < 2 ^ 32
  ehsize : h.ehsize < 2 ^ 16
  phentsize : h.phentsize < 2 ^ 16
  phnum : h.phnum < 2 ^ 16
  shentsize : h.shentsize < 2 ^ 16
  shnum : h.shnum < 2 ^ 16
  shstrndx : h.shstrndx < 2 ^ 16

theorem Ehdr.decode_encode (c : Cfg) (h : Ehdr) (hf : EhdrFits c h) (tl : List UInt8) :
    Ehdr.decode c (h.encode c ++ tl) = h := by
  have hd := Obj.decode_encode c.en [(2, h.type), (2, h.machine), (4, h.version), (c.w, h.entry), (c.w, h.phoff), (c.w, h.shoff),
    (4, h.flags), (2, h.ehsize), (2, h.phentsize), (2, h.phnum), (2, h.shentsize), (2, h.shnum), (2, h.shstrndx)] tl (by
      obtain ⟨h1, h2, h3, h4, h5, h6, h7, h8, h9, h10, h11, h12, h13⟩ := hf
      simp only [Fits, List.mem_cons, List.not_mem_nil, or_false, forall_eq_or_imp, forall_eq, pow_w]
      simp_all)
  unfold Ehdr.decode ehdrWidths Ehdr.encode
  simp only [List.map_cons, List.map_nil] at hd
  have h16 : ∀ l : List UInt8, (identBytes c h.osAbi h.abiVersion ++ l).drop 16 = l := by
    intro l; simp [identBytes]
  rw [List.append_assoc, h16, hd]
  rfl

theorem isSupported_encode (c : Cfg) (h : Ehdr) (tl : List UInt8) :
    isSupported c.is64 (h.encode c ++ tl) = true ∧ endianOf (h.encode c ++ tl) = c.en := by
  unfold isSupported endianOf Ehdr.encode identBytes
  cases c.is64 <;> cases c.en <;> simp

theorem at_read {d b : List UInt8} {o : Nat} (h : At d o b) : ReadRef.readBytesAt d o b.length = .ok b := by
  rw [readRef_readBytesAt_eq]
  by_cases hb : b = []
  · subst hb; simp [slice]
  · have := at_le h hb
    rw [if_pos (Or.inr this)]
    unfold At at h; rw [h]

theorem at_append {d a b : List UInt8} {o : Nat} : At d o (a ++ b) ↔ At d o a ∧ At d (o + a.length) b := by
  unfold At slice
  rw [← List.drop_drop]
  generalize d.drop o = e
  constructor
  · intro h
    have h1 : e.take a.length = a := by
      have := congrArg (List.take a.length) h
      rwa [List.take_take, Nat.min_eq_left (by simp), List.take_left'] at this
      rfl
    refine ⟨h1, ?_⟩
    have h2 := congrArg (List.drop a.length) h
    rw [List.length_append, List.drop_take, List.drop_left'] at h2
    · simpa using h2
    · rfl
  · rintro ⟨h1, h2⟩
    rw [List.length_append, List.take_add, h1, h2]

theorem chunks_flatMap {α : Type} (enc : α → List UInt8) (size : Nat) (xs : List α)
    (h : ∀ x ∈ xs, (enc x).length = size) (tl : List UInt8) :
    Bytes.chunks size xs.length (xs.flatMap enc ++ tl) = xs.map enc := by
  induction xs with
  | nil => rfl
  | cons x xs ih =>
    have hx := h x (by simp)
    simp only [List.length_cons, Bytes.chunks, List.flatMap_cons, List.append_assoc, List.map_cons]
    rw [List.take_left' hx, List.drop_left' hx, ih (fun y hy => h y (by simp [hy]))]

theorem length_flatMap_const {α : Type} (enc : α → List UInt8) (size : Nat) (xs : List α)
    (h : ∀ x ∈ xs, (enc x).length = size) : (xs.flatMap enc).length = xs.length * size := by
  induction xs with
  | nil => simp
  | cons x xs ih =>
    simp only [List.flatMap_cons, List.length_append, List.length_cons]
    rw [h x (by simp), ih (fun y hy => h y (by simp [hy])), Nat.succ_mul]; omega

/-- Reading an array of records that is present at an offset. -/
theorem readSliceAt_flatMap {α : Type} (enc : α → List UInt8) (size : Nat) (xs : List α)
    (h : ∀ x ∈ xs, (enc x).length = size) {d : List UInt8} {o : Nat} (hd : d.length < U64)
    (ha : At d o (xs.flatMap enc)) : readSliceAt d o size xs.length = .ok (xs.map enc) := by
  have hl := length_flatMap_const enc size xs h
  have hr := at_read ha
  have hc := chunks_flatMap enc size xs h []
  rw [List.append_nil] at hc
  rw [hl] at hr
  have hle : xs.length * size < U64 := by
    by_cases he : xs.flatMap enc = []
    · rw [he] at hl; simp at hl; omega
    · have := at_le ha he; omega
  unfold readSliceAt ReadRef.readSlice ReadRef.readBytes
  rw [if_neg (by omega), hr]
  simp [hc]

theorem sliceFromAllBytes_flatMap {α : Type} (enc : α → List UInt8) (size : Nat) (hs : 0 < size) (xs : List α)
    (h : ∀ x ∈ xs, (enc x).length = size) (hd : (xs.flatMap enc).length < U64) :
    sliceFromAllBytes size (xs.flatMap enc) = .ok (xs.map enc) := by
  have hl := length_flatMap_const enc size xs h
  have hc := chunks_flatMap enc size xs h []
  rw [List.append_nil] at hc
  unfold sliceFromAllBytes Bytes.readSlice
  rw [hl, Nat.mul_div_cancel _ hs, if_pos ⟨by omega, by omega⟩]
  simp [hc, ← hl]

end Obj.Elf
