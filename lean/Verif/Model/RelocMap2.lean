import Verif.Model.Common
import Verif.Model.Endian

/-!
# Relocation tables: COFF, Mach-O and XCOFF

The tables of `write::Object` and of the readers.  A COFF type, a Mach-O `r_type` and an XCOFF `r_rtype`
are `Nat`s; the constants are those of src/pe.rs, src/macho.rs and src/xcoff.rs.
-/

namespace Obj

/-! ## COFF -/

/-- The `typ` table of `coff_translate_relocation`, src/write/coff/object.rs:199-251, after `GotRelative`
and `PltRelative` have been replaced (185-196).  `none` is `unsupported_reloc()` or an unimplemented
architecture. -/
def coffType (arch : Arch) (kind : RelocKind) (enc : RelocEnc) (size : Nat) (addend : Int) : Option Nat :=
  match arch with
  | .i386 =>
    match kind, size with
    | .absolute, 16 => some 0x01      -- IMAGE_REL_I386_DIR16
    | .relative, 16 => some 0x02      -- IMAGE_REL_I386_REL16
    | .absolute, 32 => some 0x06      -- IMAGE_REL_I386_DIR32
    | .imageOffset, 32 => some 0x07   -- IMAGE_REL_I386_DIR32NB
    | .sectionIndex, 16 => some 0x0a  -- IMAGE_REL_I386_SECTION
    | .sectionOffset, 32 => some 0x0b -- IMAGE_REL_I386_SECREL
    | .sectionOffset, 7 => some 0x0d  -- IMAGE_REL_I386_SECREL7
    | .relative, 32 => some 0x14      -- IMAGE_REL_I386_REL32
    | _, _ => none
  | .x86_64 =>
    match kind, size with
    | .absolute, 64 => some 0x01      -- IMAGE_REL_AMD64_ADDR64
    | .absolute, 32 => some 0x02      -- IMAGE_REL_AMD64_ADDR32
    | .imageOffset, 32 => some 0x03   -- IMAGE_REL_AMD64_ADDR32NB
    | .relative, 32 =>
      if addend = -5 then some 0x05       -- IMAGE_REL_AMD64_REL32_1
      else if addend = -6 then some 0x06  -- IMAGE_REL_AMD64_REL32_2
      else if addend = -7 then some 0x07  -- IMAGE_REL_AMD64_REL32_3
      else if addend = -8 then some 0x08  -- IMAGE_REL_AMD64_REL32_4
      else if addend = -9 then some 0x09  -- IMAGE_REL_AMD64_REL32_5
      else some 0x04                      -- IMAGE_REL_AMD64_REL32
    | .sectionIndex, 16 => some 0x0a  -- IMAGE_REL_AMD64_SECTION
    | .sectionOffset, 32 => some 0x0b -- IMAGE_REL_AMD64_SECREL
    | .sectionOffset, 7 => some 0x0c  -- IMAGE_REL_AMD64_SECREL7
    | _, _ => none
  | .arm =>
    match kind, size with
    | .absolute, 32 => some 0x01      -- IMAGE_REL_ARM_ADDR32
    | .imageOffset, 32 => some 0x02   -- IMAGE_REL_ARM_ADDR32NB
    | .relative, 32 => some 0x0a      -- IMAGE_REL_ARM_REL32
    | .sectionIndex, 16 => some 0x0e  -- IMAGE_REL_ARM_SECTION
    | .sectionOffset, 32 => some 0x0f -- IMAGE_REL_ARM_SECREL
    | _, _ => none
  | .aarch64 =>
    match kind, enc, size with
    | .absolute, _, 32 => some 0x01      -- IMAGE_REL_ARM64_ADDR32
    | .imageOffset, _, 32 => some 0x02   -- IMAGE_REL_ARM64_ADDR32NB
    | .sectionIndex, _, 16 => some 0x0d  -- IMAGE_REL_ARM64_SECTION
    | .sectionOffset, _, 32 => some 0x08 -- IMAGE_REL_ARM64_SECREL
    | .absolute, _, 64 => some 0x0e      -- IMAGE_REL_ARM64_ADDR64
    | .relative, _, 32 => some 0x11      -- IMAGE_REL_ARM64_REL32
    | .relative, .aarch64Call, 26 => some 0x03 -- IMAGE_REL_ARM64_BRANCH26
    | _, _, _ => none
  | _ => none

/-- The `offset` of `coff_adjust_addend`, src/write/coff/object.rs:259-301. -/
def coffPcOffset (arch : Arch) (typ : Nat) : Res Int :=
  match arch with
  | .arm => .ok (if typ = 0x0a then 4 else 0)
  | .aarch64 => .ok (if typ = 0x11 then 4 else 0)
  | .i386 => .ok (if typ = 0x14 then 4 else 0)
  | .x86_64 =>
    .ok (if typ = 0x04 then 4 else if typ = 0x05 then 5 else if typ = 0x06 then 6
      else if typ = 0x07 then 7 else if typ = 0x08 then 8 else if typ = 0x09 then 9 else 0)
  | .powerPc | .powerPc64 => .ok 0
  | _ => .err

/-- `coff_relocation_size`, src/write/coff/object.rs:303-358, for relocation type `typ`. -/
def coffRelocSize (arch : Arch) (typ : Nat) : Res Nat :=
  match arch with
  | .i386 =>
    if typ = 0x01 ∨ typ = 0x02 ∨ typ = 0x0a then .ok 16
    else if typ = 0x06 ∨ typ = 0x07 ∨ typ = 0x0b ∨ typ = 0x0c ∨ typ = 0x14 then .ok 32
    else .err
  | .x86_64 =>
    if typ = 0x0a then .ok 16
    else if typ = 0x02 ∨ typ = 0x03 ∨ typ = 0x04 ∨ typ = 0x05 ∨ typ = 0x06 ∨ typ = 0x07 ∨ typ = 0x08 ∨
      typ = 0x09 ∨ typ = 0x0b ∨ typ = 0x0d then .ok 32
    else if typ = 0x01 then .ok 64
    else .err
  | .arm =>
    if typ = 0x0e then .ok 16
    else if typ = 0x01 ∨ typ = 0x02 ∨ typ = 0x05 ∨ typ = 0x0a ∨ typ = 0x0f then .ok 32
    else .err
  | .aarch64 =>
    if typ = 0x0d then .ok 16
    else if typ = 0x01 ∨ typ = 0x02 ∨ typ = 0x08 ∨ typ = 0x0c ∨ typ = 0x11 then .ok 32
    else if typ = 0x0e then .ok 64
    else .err
  | _ => .err

/-- `machine` in `coff_write`, src/write/coff/object.rs:596-616 (with no sub-architecture). -/
def coffMachine (arch : Arch) (endian : Endianness) : Res Nat :=
  match arch, endian with
  | .arm, _ => .ok 0x1c4       -- IMAGE_FILE_MACHINE_ARMNT
  | .aarch64, _ => .ok 0xaa64  -- IMAGE_FILE_MACHINE_ARM64
  | .i386, _ => .ok 0x14c      -- IMAGE_FILE_MACHINE_I386
  | .x86_64, _ => .ok 0x8664   -- IMAGE_FILE_MACHINE_AMD64
  | .powerPc, .little => .ok 0x1f0   -- IMAGE_FILE_MACHINE_POWERPC
  | .powerPc64, .little => .ok 0x1f0
  | .powerPc, .big => .ok 0x1f2      -- IMAGE_FILE_MACHINE_POWERPCBE
  | .powerPc64, .big => .ok 0x1f2
  | _, _ => .err

/-- The table of `CoffRelocationIterator::next`, src/read/coff/relocation.rs:43-92: kind, encoding, size
and addend. -/
def coffKind (machine typ : Nat) : RelocKind × RelocEnc × Nat × Int :=
  if machine = 0x1c4 then
    if typ = 0x01 then (.absolute, .generic, 32, 0)
    else if typ = 0x02 then (.imageOffset, .generic, 32, 0)
    else if typ = 0x0a then (.relative, .generic, 32, -4)
    else if typ = 0x0e then (.sectionIndex, .generic, 16, 0)
    else if typ = 0x0f then (.sectionOffset, .generic, 32, 0)
    else (.unknown, .unknown, 0, 0)
  else if machine = 0xaa64 ∨ machine = 0xa641 then
    if typ = 0x01 then (.absolute, .generic, 32, 0)
    else if typ = 0x02 then (.imageOffset, .generic, 32, 0)
    else if typ = 0x08 then (.sectionOffset, .generic, 32, 0)
    else if typ = 0x0d then (.sectionIndex, .generic, 16, 0)
    else if typ = 0x0e then (.absolute, .generic, 64, 0)
    else if typ = 0x11 then (.relative, .generic, 32, -4)
    else if typ = 0x03 then (.relative, .aarch64Call, 26, 0)
    else (.unknown, .unknown, 0, 0)
  else if machine = 0x14c then
    if typ = 0x01 then (.absolute, .generic, 16, 0)
    else if typ = 0x02 then (.relative, .generic, 16, 0)
    else if typ = 0x06 then (.absolute, .generic, 32, 0)
    else if typ = 0x07 then (.imageOffset, .generic, 32, 0)
    else if typ = 0x0a then (.sectionIndex, .generic, 16, 0)
    else if typ = 0x0b then (.sectionOffset, .generic, 32, 0)
    else if typ = 0x0d then (.sectionOffset, .generic, 7, 0)
    else if typ = 0x14 then (.relative, .generic, 32, -4)
    else (.unknown, .unknown, 0, 0)
  else if machine = 0x8664 then
    if typ = 0x01 then (.absolute, .generic, 64, 0)
    else if typ = 0x02 then (.absolute, .generic, 32, 0)
    else if typ = 0x03 then (.imageOffset, .generic, 32, 0)
    else if typ = 0x04 then (.relative, .generic, 32, -4)
    else if typ = 0x05 then (.relative, .generic, 32, -5)
    else if typ = 0x06 then (.relative, .generic, 32, -6)
    else if typ = 0x07 then (.relative, .generic, 32, -7)
    else if typ = 0x08 then (.relative, .generic, 32, -8)
    else if typ = 0x09 then (.relative, .generic, 32, -9)
    else if typ = 0x0a then (.sectionIndex, .generic, 16, 0)
    else if typ = 0x0b then (.sectionOffset, .generic, 32, 0)
    else if typ = 0x0c then (.sectionOffset, .generic, 7, 0)
    else (.unknown, .unknown, 0, 0)
  else (.unknown, .unknown, 0, 0)

/-! ## Mach-O -/

/-- `r_length` in `macho_translate_relocation`, src/write/macho/object.rs:320-331. -/
def machoLength (arch : Arch) (size : Nat) : Option Nat :=
  let size := if arch = .aarch64 ∧ (size = 12 ∨ size = 21 ∨ size = 26) then 32 else size
  if size = 8 then some 0
  else if size = 16 then some 1
  else if size = 32 then some 2
  else if size = 64 then some 3
  else none

/-- The `(r_pcrel, r_type)` table of `macho_translate_relocation`, src/write/macho/object.rs:333-378.
(The `Relative`, `Generic` arm of arm64 also adds a subtractor, see `machoTranslate`.) -/
def machoType (arch : Arch) (kind : RelocKind) (enc : RelocEnc) : Option (Bool × Nat) :=
  match arch with
  | .i386 => match kind with
    | .absolute => some (false, 0)  -- GENERIC_RELOC_VANILLA
    | _ => none
  | .arm => match kind with
    | .absolute => some (false, 0)  -- ARM_RELOC_VANILLA
    | _ => none
  | .x86_64 => match kind, enc with
    | .absolute, .generic => some (false, 0)                -- X86_64_RELOC_UNSIGNED
    | .relative, .generic => some (true, 1)                 -- X86_64_RELOC_SIGNED
    | .relative, .x86RipRelative => some (true, 1)
    | .relative, .x86Branch => some (true, 2)               -- X86_64_RELOC_BRANCH
    | .pltRelative, .generic => some (true, 2)
    | .pltRelative, .x86Branch => some (true, 2)
    | .gotRelative, .generic => some (true, 4)              -- X86_64_RELOC_GOT
    | .gotRelative, .x86RipRelativeMovq => some (true, 3)   -- X86_64_RELOC_GOT_LOAD
    | _, _ => none
  | .aarch64 | .aarch64_Ilp32 => match kind, enc with
    | .absolute, .generic => some (false, 0)        -- ARM64_RELOC_UNSIGNED
    | .relative, .generic => some (false, 0)
    | .relative, .aarch64Call => some (true, 2)     -- ARM64_RELOC_BRANCH26
    | .pltRelative, .generic => some (true, 2)
    | .pltRelative, .aarch64Call => some (true, 2)
    | .gotRelative, .generic => some (true, 7)      -- ARM64_RELOC_POINTER_TO_GOT
    | _, _ => none
  | .powerPc | .powerPc64 => match kind with
    | .absolute => some (false, 0)  -- PPC_RELOC_VANILLA
    | _ => none
  | _ => none

/-- `pcrel_offset` of `macho_adjust_addend`, src/write/macho/object.rs:400-416. -/
def machoPcOffset (arch : Arch) (rtype : Nat) (pcrel : Bool) : Int :=
  if pcrel then
    match arch with
    | .i386 => 4
    | .x86_64 => if rtype = 6 then 5 else if rtype = 7 then 6 else if rtype = 8 then 8 else 4
    | _ => 0
  else 0

/-- The implicit flag of `macho_adjust_addend`, src/write/macho/object.rs:419-430: explicit for
`ARM64_RELOC_BRANCH26`, `ARM64_RELOC_PAGE21` and `ARM64_RELOC_PAGEOFF12` on `Aarch64`. -/
def machoImplicit (arch : Arch) (rtype : Nat) : Bool :=
  !(decide (arch = .aarch64) && (decide (rtype = 2) || decide (rtype = 3) || decide (rtype = 4)))

/-- `macho_relocation_size`, src/write/macho/object.rs:433-439: `8 << r_length` in `u8`. -/
def machoRelocSize (rlength : Nat) : Res Nat := if rlength < 8 then .ok (8 * 2 ^ rlength % 256) else .panic

/-- `cputype` in `macho_write`, src/write/macho/object.rs:608-632 (with no sub-architecture). -/
def machoCpu (arch : Arch) : Res Nat :=
  match arch with
  | .arm => .ok 12
  | .aarch64 => .ok 0x0100000c
  | .aarch64_Ilp32 => .ok 0x0200000c
  | .i386 => .ok 7
  | .x86_64 => .ok 0x01000007
  | .powerPc => .ok 18
  | .powerPc64 => .ok 0x01000012
  | _ => .err

/-! ## XCOFF -/

/-- `r_rtype` in `xcoff_translate_relocation`, src/write/xcoff.rs:179-187. -/
def xcoffType (kind : RelocKind) : Option Nat :=
  match kind with
  | .absolute => some 0  -- R_POS
  | .relative => some 2  -- R_REL
  | .got => some 3       -- R_TOC
  | _ => none

/-- The table of `XcoffRelocationIterator::next`, src/read/xcoff/relocation.rs:45-59: kind, size and
addend. -/
def xcoffKind (rtype rsize : Nat) : RelocKind × Nat × Int :=
  let size := rsize % 64 + 1
  if rtype = 0x00 ∨ rtype = 0x0c ∨ rtype = 0x0d ∨ rtype = 0x08 ∨ rtype = 0x18 ∨ rtype = 0x20 then
    (.absolute, size, 0)
  else if rtype = 0x02 ∨ rtype = 0x0a ∨ rtype = 0x1a then (.relative, size, -4)
  else if rtype = 0x03 ∨ rtype = 0x31 ∨ rtype = 0x30 then (.got, size, 0)
  else (.unknown, size, 0)

end Obj
