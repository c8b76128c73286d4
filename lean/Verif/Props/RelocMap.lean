import Verif.Proof.RelocMap

/-!
# C63: relocation tables and architectures of the writers and readers agree
-/

namespace Obj.Props
open Obj ElfC

/-- **C63 (specification).** Direct and PLT calls. -/
def Call (k : RelocKind) : Prop := k = .relative ∨ k = .pltRelative

instance (k : RelocKind) : Decidable (Call k) := by unfold Call; infer_instance

/-! ## ELF -/

set_option maxHeartbeats 4000000 in
/-- **C63.** A generic relocation that the ELF writer accepts is read back with its size and kind; a call
relocation may be read as a direct or a PLT call.  The encoding is read back, or is generic (the type does
not tell), or is a branch (x86-64 PLT).  Exceptions: 32-bit relative relocations for RISC-V
(`C63_elf_riscv`) and type B relative ones for SHARC (`C63_elf_sharc`). -/
theorem C63_elf_write_read (a : Arch) (e : Endianness) (k : RelocKind) (enc : RelocEnc) (n r m : Nat) (b : Bool)
    (hm : elfMachine a = .ok m) (hb : elfIs64 a = some b) (h : elfType a e k enc n = some r)
    (h1 : ¬ ((a = .riscv32 ∨ a = .riscv64) ∧ k = .relative))
    (h2 : ¬ (a = .sharc ∧ k = .relative ∧ enc = .sharcTypeB)) :
    ∃ k' enc', elfKind m b e r = (k', enc', n) ∧
      (k' = k ∨ (Call k ∧ Call k' ∧ (enc = .aarch64Call ∨ enc = .x86Branch ∨ enc = .loongArchBranch))) ∧
      (enc' = enc ∨ enc' = .generic ∨ (k = .pltRelative ∧ (a = .x86_64 ∨ a = .x86_64_X32) ∧ enc' = .x86Branch)) := by
  unfold elfType at h
  split at h <;> first | cases h | (
    cases hm; cases hb
    split at h <;> cases h <;>
    first
    | exact ⟨_, _, rfl, by decide, by decide⟩
    | exact ⟨_, _, rfl, .inl rfl, .inr (.inl rfl)⟩
    | exact ⟨_, _, rfl, .inl rfl, .inr (.inr (by decide))⟩
    | exact ⟨_, _, rfl, by decide, .inr (.inl rfl)⟩
    | exact ⟨_, _, rfl, by decide, .inr (.inr (by decide))⟩
    | exact absurd (by decide) h1
    | exact absurd (by decide) h2)

example : elfMachine .x86_64 = .ok 62 ∧ elfIs64 .x86_64 = some true ∧
    elfType .x86_64 .little .pltRelative .x86Branch 32 = some 4 ∧
    elfKind 62 true .little 4 = (.pltRelative, .x86Branch, 32) := by decide

/-- **C63.** The RISC-V exception: the writer turns a 32-bit relative relocation into type 57, which the
reader does not know. -/
theorem C63_elf_riscv (a : Arch) (e : Endianness) (ha : a = .riscv32 ∨ a = .riscv64) :
    ∃ m b, elfMachine a = .ok m ∧ elfIs64 a = some b ∧ elfType a e .relative .generic 32 = some 57 ∧
      elfKind m b e 57 = (.unknown, .unknown, 0) := by
  obtain rfl | rfl := ha <;> exact ⟨_, _, rfl, rfl, rfl, rfl⟩

/-- **C63.** The SHARC exception: the 6-bit relative relocation of type B is written as that of type A. -/
theorem C63_elf_sharc (e : Endianness) :
    elfType .sharc e .relative .sharcTypeB 6 = elfType .sharc e .relative .sharcTypeA 6 ∧
    elfMachine .sharc = .ok 133 ∧
    elfKind 133 false e 14 = (.relative, .sharcTypeA, 6) ∧ elfType .sharc e .relative .sharcTypeA 6 = some 14 :=
  ⟨rfl, rfl, rfl, rfl⟩

/-- **C63.** A relocation type that the ELF reader knows is written back as the same type: reading a
relocation and adding it to a new object of the same architecture preserves its type.  Exceptions: SPARC
(`C63_elf_sparc`) and the SHARC type 23. -/
theorem C63_elf_read_write (a : Arch) (e : Endianness) (k : RelocKind) (enc : RelocEnc) (n r m : Nat) (b : Bool)
    (hm : elfMachine a = .ok m) (hb : elfIs64 a = some b) (h : elfKind m b e r = (k, enc, n))
    (hk : k ≠ .unknown) (he : enc ≠ .unknown)
    (hs : a ≠ .sparc ∧ a ≠ .sparc32Plus ∧ a ≠ .sparc64) (hsh : ¬ (a = .sharc ∧ r = 23)) :
    elfType a e k enc n = some r := by
  have := readWriteOk_true a e r
  unfold readWriteOk at this
  simp only [hm, hb, h] at this
  simp only [Bool.or_eq_true, decide_eq_true_eq, Bool.and_eq_true, hk, he, hs.1, hs.2.1, hs.2.2, hsh,
    false_or, or_false] at this
  exact this

/-- **C63.** SPARC: every 32-bit absolute relocation is written as `R_SPARC_UA32`, and (for 64-bit files)
every 64-bit one as `R_SPARC_UA64`, although the reader also knows `R_SPARC_32` and `R_SPARC_64`. -/
theorem C63_elf_sparc (e : Endianness) :
    (∀ a ∈ [Arch.sparc, .sparc32Plus, .sparc64], elfType a e .absolute .generic 32 = some 23 ∧
      ∃ m b, elfMachine a = .ok m ∧ elfIs64 a = some b ∧
        elfKind m b e 23 = (.absolute, .generic, 32) ∧ elfKind m b e 3 = (.absolute, .generic, 32)) ∧
    elfType .sparc64 e .absolute .generic 64 = some 54 := by
  constructor
  · intro a ha
    simp only [List.mem_cons, List.not_mem_nil, or_false] at ha
    obtain rfl | rfl | rfl := ha <;> exact ⟨rfl, _, _, rfl, rfl, rfl, rfl⟩
  · rfl

/-- **C63.** A file written for an architecture is read back with that architecture. -/
theorem C63_elf_arch (a : Arch) (m flags : Nat) (b : Bool) (hm : elfMachine a = .ok m) (hb : elfIs64 a = some b)
    (hf : a = .mips → flags &&& 32 = 0) :
    elfArch m b (decide (elfFlags a flags &&& 32 ≠ 0)) = a := by
  have h32 : (flags ||| 32) &&& 32 ≠ 0 := by
    intro h
    have := congrArg (fun x => x.testBit 5) h
    rw [Nat.testBit_and, Nat.testBit_or] at this
    have h5 : Nat.testBit 32 5 = true := by decide
    rw [h5] at this
    simp at this
  cases a <;> cases hm <;> cases hb <;> first | rfl | skip
  · have : decide (elfFlags .mips flags &&& 32 ≠ 0) = false := by
      simp only [elfFlags, reduceCtorEq, if_false]
      rw [hf rfl]; rfl
    rw [this]; rfl
  · have : decide (elfFlags .mips64_N32 flags &&& 32 ≠ 0) = true := by
      simp only [elfFlags, reduceCtorEq, if_false, if_true]
      exact decide_eq_true h32
    rw [this]; rfl

example : elfMachine .mips64_N32 = .ok 8 ∧ elfIs64 .mips64_N32 = some false := by decide

/-! ## COFF -/

set_option maxHeartbeats 1000000 in
/-- **C63.** A relocation that the COFF writer accepts is read back with its kind and size, and with an
addend that is the negative of the offset that the writer adds to the addend it stores: stored addend plus
addend read is the original addend.  (PLT and GOT relocations have been turned into relative ones before,
see `C62_coff_kinds`.)  The encoding is generic or that of the call. -/
theorem C63_coff_write_read (a : Arch) (e : Endianness) (k : RelocKind) (enc : RelocEnc) (n t m : Nat) (x : Int)
    (hm : coffMachine a e = .ok m) (h : coffType a k enc n x = some t) :
    ∃ enc' off, coffKind m t = (k, enc', n, -off) ∧ coffPcOffset a t = .ok off ∧
      (enc' = .generic ∨ (enc' = .aarch64Call ∧ enc = .aarch64Call)) := by
  unfold coffType at h
  split at h
  · cases hm
    split at h <;> cases h <;> exact ⟨_, _, rfl, rfl, .inl rfl⟩
  · cases hm
    split at h
    all_goals first
      | (cases h; exact ⟨_, _, rfl, rfl, .inl rfl⟩)
      | (repeat' split at h) <;> cases h <;> exact ⟨_, _, rfl, rfl, .inl rfl⟩
      | cases h
  · cases hm
    split at h <;> cases h <;> exact ⟨_, _, rfl, rfl, .inl rfl⟩
  · cases hm
    split at h <;> cases h <;> first | exact ⟨_, _, rfl, rfl, .inl rfl⟩ | exact ⟨_, _, rfl, rfl, .inr ⟨rfl, rfl⟩⟩
  · cases h

private theorem coffKind_big (m t : Nat) (h : 32 ≤ t) : coffKind m t = (.unknown, .unknown, 0, 0) := by
  have n : ∀ c, c < 32 → (t = c) = False := fun c hc => by simp; omega
  unfold coffKind
  simp only [n 1 (by decide), n 2 (by decide), n 3 (by decide), n 4 (by decide), n 5 (by decide),
    n 6 (by decide), n 7 (by decide), n 8 (by decide), n 9 (by decide), n 10 (by decide), n 11 (by decide),
    n 12 (by decide), n 13 (by decide), n 14 (by decide), n 15 (by decide), n 17 (by decide), n 20 (by decide),
    if_false, ite_self]

private theorem coffKind_all : ∀ m ∈ [0x1c4, 0xaa64, 0xa641, 0x14c, 0x8664], ∀ t : Fin 32,
    (coffKind m t).1 = .unknown ∨ coffType (coffArch m) (coffKind m t).1 (coffKind m t).2.1
      (coffKind m t).2.2.1 (coffKind m t).2.2.2 = some t.1 := by decide +kernel

/-- **C63.** A COFF relocation type that the reader knows is written back as the same type. -/
theorem C63_coff_read_write (m t n : Nat) (k : RelocKind) (enc : RelocEnc) (x : Int)
    (h : coffKind m t = (k, enc, n, x)) (hk : k ≠ .unknown) : coffType (coffArch m) k enc n x = some t := by
  by_cases ht : t < 32
  · by_cases hm : m ∈ [0x1c4, 0xaa64, 0xa641, 0x14c, 0x8664]
    · have := coffKind_all m hm ⟨t, ht⟩
      simp only [h] at this
      exact this.resolve_left hk
    · simp only [List.mem_cons, List.not_mem_nil, or_false, not_or] at hm
      unfold coffKind at h
      rw [if_neg hm.1, if_neg (fun h => h.elim hm.2.1 hm.2.2.1), if_neg hm.2.2.2.1, if_neg hm.2.2.2.2] at h
      cases h; exact absurd rfl hk
  · rw [coffKind_big m t (by omega)] at h
    cases h; exact absurd rfl hk

/-- **C63.** The size with which an implicit addend is stored is the size of the relocation, for every
type of 16, 32 or 64 bits that the writer uses. -/
theorem C63_coff_size (a : Arch) (k : RelocKind) (enc : RelocEnc) (n t : Nat) (x : Int)
    (h : coffType a k enc n x = some t) (hn : n = 16 ∨ n = 32 ∨ n = 64) : coffRelocSize a t = .ok n := by
  unfold coffType at h
  split at h
  · split at h <;> cases h <;> first | rfl | simp at hn
  · split at h
    all_goals first
      | (cases h; first | rfl | simp at hn)
      | (repeat' split at h) <;> cases h <;> rfl
      | cases h
  · split at h <;> cases h <;> first | rfl | simp at hn
  · split at h <;> cases h <;> first | rfl | simp at hn
  · cases h

/-- **C63.** A COFF file written for an architecture is read back with that architecture and byte order,
except that PowerPC 64 is read as PowerPC. -/
theorem C63_coff_arch (a : Arch) (e : Endianness) (m : Nat) (hm : coffMachine a e = .ok m) :
    coffArch m = (if a = .powerPc64 then .powerPc else a) ∧
    (a = .powerPc ∨ a = .powerPc64 → (coffLittle m = true ↔ e = .little)) := by
  cases a <;> cases e <;> cases hm <;> decide

/-! ## XCOFF -/

/-- **C63.** A relocation that the XCOFF writer accepts, of size 1 to 64, is read back with its kind and
size; the addend read is -4 for a relative one, to which the writer added 4. -/
theorem C63_xcoff_write_read (k : RelocKind) (n t : Nat) (h : xcoffType k = some t) (h1 : 1 ≤ n) (h2 : n ≤ 64) :
    xcoffKind t (n - 1) = (k, n, if k = .relative then -4 else 0) := by
  have hs : (n - 1) % 64 + 1 = n := by omega
  cases k <;> cases h <;> simp [xcoffKind, hs]

/-! ## Mach-O -/

/-- **C63.** A Mach-O file written for an architecture is read back with that architecture. -/
theorem C63_macho_arch (a : Arch) (cpu : Nat) (h : machoCpu a = .ok cpu) : machoArch cpu = a := by
  cases a <;> cases h <;> rfl

/-- **C63.** A relocation that the Mach-O writer accepts (and does not turn into a pair with a subtractor)
is read back with its kind, where a call may become a PLT call; with its encoding, unless that is generic, or
read back is generic on an architecture that has only generic ones; and with its size (26 for a call on ARM64). -/
theorem C63_macho_write_read (a : Arch) (k : RelocKind) (enc : RelocEnc) (n len cpu t address symbolnum : Nat)
    (pcrel ext : Bool) (hc : machoCpu a = .ok cpu) (hl : machoLength a n = some len)
    (ht : machoType a k enc = some (pcrel, t))
    (hp : ¬ ((a = .aarch64 ∨ a = .aarch64_Ilp32) ∧ k = .relative ∧ enc = .generic))
    (hb : (a = .aarch64 ∨ a = .aarch64_Ilp32) → (k = .absolute ∨ k = .gotRelative) → n = 32 ∨ n = 64 ∨ n = 8 ∨ n = 16) :
    ∃ k' enc' n', machoAction cpu ⟨address, symbolnum, pcrel, len, ext, t⟩ = .yield_ k' enc' n' ∧
      (k' = k ∨ (Call k ∧ Call k')) ∧ (enc' = enc ∨ enc = .generic ∨ (enc' = .generic ∧ a ∉ [.x86_64, .aarch64, .aarch64_Ilp32])) ∧
      (n' = n ∨ ((a = .aarch64 ∨ a = .aarch64_Ilp32) ∧ Call k ∧ n' = 26)) := by
  have hsz : ∀ l, machoLength a n = some l → ((a = .aarch64 → n ≠ 12 ∧ n ≠ 21 ∧ n ≠ 26) → 8 * 2 ^ l % 256 = n) := by
    intro l hl hne
    unfold machoLength at hl
    have : ¬ (a = .aarch64 ∧ (n = 12 ∨ n = 21 ∨ n = 26)) := by
      rintro ⟨h1, h2⟩
      have := hne h1
      omega
    rw [if_neg this] at hl
    simp only at hl
    repeat' split at hl
    all_goals first | (cases hl; subst_vars; rfl) | cases hl
  have hz := hsz len hl
  cases a <;> cases hc <;> unfold machoType at ht <;> simp only at ht
  · split at ht <;> cases ht
    · exact ⟨_, _, _, rfl, .inl rfl, by decide, .inl (hz (fun _ => by have := hb (by simp) (by simp); omega))⟩
    · exact absurd ⟨.inl rfl, rfl, rfl⟩ hp
    · exact ⟨_, _, _, rfl, by decide, by decide, .inr (by decide)⟩
    · exact ⟨_, _, _, rfl, by decide, by decide, .inr (by decide)⟩
    · exact ⟨_, _, _, rfl, by decide, by decide, .inr (by decide)⟩
    · exact ⟨_, _, _, rfl, .inl rfl, by decide, .inl (hz (fun _ => by have := hb (by simp) (by simp); omega))⟩
  · split at ht <;> cases ht
    · exact ⟨_, _, _, rfl, .inl rfl, by decide, .inl (hz (by simp))⟩
    · exact absurd ⟨.inr rfl, rfl, rfl⟩ hp
    · exact ⟨_, _, _, rfl, by decide, by decide, .inr (by decide)⟩
    · exact ⟨_, _, _, rfl, by decide, by decide, .inr (by decide)⟩
    · exact ⟨_, _, _, rfl, by decide, by decide, .inr (by decide)⟩
    · exact ⟨_, _, _, rfl, .inl rfl, by decide, .inl (hz (by simp))⟩
  · split at ht <;> cases ht
    exact ⟨_, _, _, rfl, .inl rfl, .inr (.inr ⟨rfl, by decide⟩), .inl (hz (by simp))⟩
  · split at ht <;> cases ht
    exact ⟨_, _, _, rfl, .inl rfl, .inr (.inr ⟨rfl, by decide⟩), .inl (hz (by simp))⟩
  · split at ht <;> cases ht <;> exact ⟨_, _, _, rfl, by decide, by decide, .inl (hz (by simp))⟩
  · split at ht <;> cases ht
    exact ⟨_, _, _, rfl, .inl rfl, .inr (.inr ⟨rfl, by decide⟩), .inl (hz (by simp))⟩
  · split at ht <;> cases ht
    exact ⟨_, _, _, rfl, .inl rfl, .inr (.inr ⟨rfl, by decide⟩), .inl (hz (by simp))⟩

/-- **C63.** What the Mach-O writer adds to the addend of a 32-bit pc-relative relocation is what the reader
subtracts. -/
theorem C63_macho_pc (a : Arch) (cpu t address symbolnum : Nat) (pcrel ext : Bool) (hc : machoCpu a = .ok cpu) :
    machoReadPc cpu ⟨address, symbolnum, pcrel, 2, ext, t⟩ = machoPcOffset a t pcrel := by
  cases a <;> cases hc <;> cases pcrel <;> simp only [machoReadPc, machoPcOffset] <;> try rfl
  · simp only [if_true]
    rw [if_neg (by decide)]
    by_cases h6 : t = 6
    · rw [if_pos h6, if_pos h6]; rfl
    rw [if_neg h6, if_neg h6]
    by_cases h7 : t = 7
    · rw [if_pos h7, if_pos h7]; rfl
    rw [if_neg h7, if_neg h7]
    by_cases h8 : t = 8
    · rw [if_pos h8, if_pos h8]; rfl
    rw [if_neg h8, if_neg h8]; rfl

end Obj.Props
