import Verif.Spec.AnyFile
import Verif.Props.FileKind
import Verif.Props.ElfWritten
import Verif.Props.MachoFile
import Verif.Props.PeFile
import Verif.Props.CoffFile
import Verif.Props.XcoffFile
import Verif.Props.MachoWrite
import Verif.Props.XcoffWrite

/-! # C91: files of any format -/

namespace Obj.Props
open Obj Obj.Any Obj.Spec Obj.Spec.AnyF

private theorem short_err {data : List UInt8} {k : FileKind} (h : Magic data 0 k) (hl : 16 ≤ data.length) : FileKind.parseAt data 0 = .ok k :=
  (C41_exact data 0 k).2 ⟨by omega, h⟩

private theorem bind_ok {α β : Type} {r : Res α} {g : α → β} {y : β} : (do let f ← r; Res.ok (g f)) = .ok y ↔ ∃ f, r = .ok f ∧ g f = y := by
  cases r with
  | ok a => simp [Res.bind_eq]
  | err => simp [Res.bind_eq]
  | panic => simp [Res.bind_eq]

private theorem bind_panic {α β : Type} {r : Res α} {g : α → β} (h : r ≠ .panic) : (do let f ← r; Res.ok (g f)) ≠ .panic := by
  cases r with
  | ok a => simp [Res.bind_eq]
  | err => simp [Res.bind_eq]
  | panic => exact absurd rfl h

/-- C91: for any bytes (below 2^63), `File::parse` does not panic, and succeeds with exactly what the bytes are a file of. -/
theorem C91_parse {W : Type} (wasm : List UInt8 → Res W) (hw : ∀ d, wasm d ≠ .panic) (data : List UInt8) (hlen : data.length < 2 ^ 63) :
    File.parse wasm data ≠ .panic ∧ ∀ F, File.parse wasm data = .ok F ↔ Is wasm data F := by
  have hl4 : data.length < 2 ^ 64 := by omega
  have kc : ∀ big f, CoffF.File.parse big data = .ok f → 16 ≤ data.length := by
    intro big f h
    have := (((C88_parse big data hlen).2 f).1 h).size
    unfold Spec.CoffF.headerSize at this
    split at this <;> omega
  constructor
  · unfold File.parse
    rw [Res.bind_eq]
    apply Res.bind_no_panic (C41_total data 0).1
    intro k _
    cases k <;> simp only []
    all_goals first
      | exact bind_panic (C87_parse _ data hl4).1
      | exact bind_panic (C86_parse _ data hlen).2
      | exact bind_panic (C84_parse _ data hlen).2
      | exact bind_panic (C88_parse _ data hlen).1
      | exact bind_panic (C90_parse _ data hlen).1
      | exact bind_panic (hw data)
      | simp
  · intro F
    have key : File.parse wasm data = .ok F ↔ ∃ k, FileKind.parseAt data 0 = .ok k ∧
        (match k with
          | .elf32 => ∃ f, ElfF.File.parse false data = .ok f ∧ File.elf32 f = F
          | .elf64 => ∃ f, ElfF.File.parse true data = .ok f ∧ File.elf64 f = F
          | .machO32 => ∃ f, MachoR.File.parse false data = .ok f ∧ File.machO32 f = F
          | .machO64 => ∃ f, MachoR.File.parse true data = .ok f ∧ File.machO64 f = F
          | .wasm => ∃ f, wasm data = .ok f ∧ File.wasm f = F
          | .pe32 => ∃ f, Pe.PeFile.parse false data = .ok f ∧ File.pe32 f = F
          | .pe64 => ∃ f, Pe.PeFile.parse true data = .ok f ∧ File.pe64 f = F
          | .coff => ∃ f, CoffF.File.parse false data = .ok f ∧ File.coff f = F
          | .coffBig => ∃ f, CoffF.File.parse true data = .ok f ∧ File.coffBig f = F
          | .xcoff32 => ∃ f, Xcoff.File.parse false data = .ok f ∧ File.xcoff32 f = F
          | .xcoff64 => ∃ f, Xcoff.File.parse true data = .ok f ∧ File.xcoff64 f = F
          | _ => False) := by
      unfold File.parse
      cases hk : FileKind.parseAt data 0 with
      | err => simp [Res.bind_eq]
      | panic => simp [Res.bind_eq]
      | ok k =>
        simp only [Res.bind_eq, Res.ok_bind, Res.ok.injEq, exists_eq_left']
        cases k <;> simp only [] <;> first | exact bind_ok | simp
    rw [key]
    constructor
    · rintro ⟨k, hk, h⟩
      have hm := (C41_exact data 0 k).1 hk
      cases k <;> simp only [] at h
      all_goals obtain ⟨f, h, rfl⟩ := h
      case coff => exact ⟨((C88_parse false data hlen).2 f).1 h, hm.2⟩
      case coffBig => exact ⟨((C88_parse true data hlen).2 f).1 h, hm.2⟩
      case elf32 => exact ((C87_parse false data hl4).2 f).1 h
      case elf64 => exact ((C87_parse true data hl4).2 f).1 h
      case machO32 => exact ((C86_parse false data hlen).1 f).1 h
      case machO64 => exact ((C86_parse true data hlen).1 f).1 h
      case pe32 => exact ((C84_parse false data hlen).1 f).1 h
      case pe64 => exact ((C84_parse true data hlen).1 f).1 h
      case wasm => exact ⟨h, by omega, hm.2⟩
      case xcoff32 => exact ((C90_parse false data hlen).2 f).1 h
      case xcoff64 => exact ((C90_parse true data hlen).2 f).1 h
    · intro h
      cases F with
      | coff f =>
        have hp := ((C88_parse false data hlen).2 f).2 h.1
        exact ⟨.coff, short_err h.2 (kc _ _ hp), f, hp, rfl⟩
      | coffBig f =>
        have hp := ((C88_parse true data hlen).2 f).2 h.1
        exact ⟨.coffBig, short_err h.2 (kc _ _ hp), f, hp, rfl⟩
      | elf32 f =>
        have hp := ((C87_parse false data hl4).2 f).2 h
        exact ⟨.elf32, (C87_kind false data hl4 f hp).1, f, hp, rfl⟩
      | elf64 f =>
        have hp := ((C87_parse true data hl4).2 f).2 h
        exact ⟨.elf64, (C87_kind true data hl4 f hp).1, f, hp, rfl⟩
      | machO32 f =>
        have hp := ((C86_parse false data hlen).1 f).2 h
        exact ⟨.machO32, (C86_kind false data hlen f hp).1, f, hp, rfl⟩
      | machO64 f =>
        have hp := ((C86_parse true data hlen).1 f).2 h
        exact ⟨.machO64, (C86_kind true data hlen f hp).1, f, hp, rfl⟩
      | pe32 f =>
        have hp := ((C84_parse false data hlen).1 f).2 h
        exact ⟨.pe32, (C84_kind false data hlen f hp).1, f, hp, rfl⟩
      | pe64 f =>
        have hp := ((C84_parse true data hlen).1 f).2 h
        exact ⟨.pe64, (C84_kind true data hlen f hp).1, f, hp, rfl⟩
      | wasm f => exact ⟨.wasm, short_err h.2.2 h.2.1, f, h.1, rfl⟩
      | xcoff32 f =>
        have hp := ((C90_parse false data hlen).2 f).2 h
        exact ⟨.xcoff32, (C90_kind false data hlen f hp).1, f, hp, rfl⟩
      | xcoff64 f =>
        have hp := ((C90_parse true data hlen).2 f).2 h
        exact ⟨.xcoff64, (C90_kind true data hlen f hp).1, f, hp, rfl⟩

/-- C91: no bytes are a file of two formats, or of one format in two ways. -/
theorem C91_unique {W : Type} (wasm : List UInt8 → Res W) (hw : ∀ d, wasm d ≠ .panic) (data : List UInt8) (hlen : data.length < 2 ^ 63) (F G : File W)
    (hF : Is wasm data F) (hG : Is wasm data G) : F = G := by
  have h := C91_parse wasm hw data hlen
  have a := (h.2 F).2 hF
  rw [(h.2 G).2 hG] at a
  injection a with a
  exact a.symm

/-- C91: containers (archives, fat binaries, dyld caches), import files and files shorter than 16 bytes are not parsed. -/
theorem C91_containers {W : Type} (wasm : List UInt8 → Res W) (data : List UInt8)
    (h : data.length < 16 ∨ ∃ k ∈ [FileKind.archive, .machOFat32, .machOFat64, .dyldCache, .coffImport], Magic data 0 k) : File.parse wasm data = .err := by
  unfold File.parse
  by_cases hs : data.length < 16
  · rw [(C41_total data 0).2.2 (.inl (by omega))]; rfl
  · rcases h with h | ⟨k, hk, hm⟩
    · exact absurd h hs
    · rw [short_err hm (by omega)]
      simp only [List.mem_cons, List.not_mem_nil, or_false] at hk
      rcases hk with rfl | rfl | rfl | rfl | rfl <;> rfl

/-- C91: the format and the class of a file are those of its kind. -/
theorem C91_class {W : Type} (wasm : List UInt8 → Res W) (hw : ∀ d, wasm d ≠ .panic) (q : WasmQueries W) (data : List UInt8) (hlen : data.length < 2 ^ 63)
    (F : File W) (h : File.parse wasm data = .ok F) :
    ∃ k fmt class_, (k, fmt, class_) ∈ kinds ∧ FileKind.parseAt data 0 = .ok k ∧ F.format = fmt ∧ ∀ b, class_ = some b → F.is64 q = b := by
  have hi := ((C91_parse wasm hw data hlen).2 F).1 h
  have hl4 : data.length < 2 ^ 64 := by omega
  have kc : ∀ big f, Spec.CoffF.Image big data f → 16 ≤ data.length := by
    intro big f h
    have := h.size
    unfold Spec.CoffF.headerSize at this
    split at this <;> omega
  cases F with
  | coff f => exact ⟨.coff, .coff, some false, by decide, short_err hi.2 (kc _ _ hi.1), rfl, by intro b hb; cases hb; rfl⟩
  | coffBig f => exact ⟨.coffBig, .coff, some false, by decide, short_err hi.2 (kc _ _ hi.1), rfl, by intro b hb; cases hb; rfl⟩
  | elf32 f =>
    have hp := ((C87_parse false data hl4).2 f).2 hi
    exact ⟨.elf32, .elf, some false, by decide, (C87_kind false data hl4 f hp).1, rfl, by intro b hb; cases hb; exact hi.width⟩
  | elf64 f =>
    have hp := ((C87_parse true data hl4).2 f).2 hi
    exact ⟨.elf64, .elf, some true, by decide, (C87_kind true data hl4 f hp).1, rfl, by intro b hb; cases hb; exact hi.width⟩
  | machO32 f =>
    have hp := ((C86_parse false data hlen).1 f).2 hi
    exact ⟨.machO32, .macho, some false, by decide, (C86_kind false data hlen f hp).1, rfl, by intro b hb; cases hb; exact hi.width⟩
  | machO64 f =>
    have hp := ((C86_parse true data hlen).1 f).2 hi
    exact ⟨.machO64, .macho, some true, by decide, (C86_kind true data hlen f hp).1, rfl, by intro b hb; cases hb; exact hi.width⟩
  | pe32 f =>
    have hp := ((C84_parse false data hlen).1 f).2 hi
    exact ⟨.pe32, .pe, some false, by decide, (C84_kind false data hlen f hp).1, rfl, by intro b hb; cases hb; exact hi.width⟩
  | pe64 f =>
    have hp := ((C84_parse true data hlen).1 f).2 hi
    exact ⟨.pe64, .pe, some true, by decide, (C84_kind true data hlen f hp).1, rfl, by intro b hb; cases hb; exact hi.width⟩
  | wasm f => exact ⟨.wasm, .wasm, none, by decide, short_err hi.2.2 hi.2.1, rfl, by intro b hb; cases hb⟩
  | xcoff32 f =>
    have hp := ((C90_parse false data hlen).2 f).2 hi
    exact ⟨.xcoff32, .xcoff, some false, by decide, (C90_kind false data hlen f hp).1, rfl, by intro b hb; cases hb; exact hi.class_⟩
  | xcoff64 f =>
    have hp := ((C90_parse true data hlen).2 f).2 hi
    exact ⟨.xcoff64, .xcoff, some true, by decide, (C90_kind true data hlen f hp).1, rfl, by intro b hb; cases hb; exact hi.class_⟩

private theorem is64_eq {a : Arch} {b : Bool} (h : elfIs64 a = some b) : decide (a.addressSize = some 8) = b := by
  unfold elfIs64 at h
  cases hw : a.addressSize with
  | none => rw [hw] at h; cases h
  | some n =>
    rw [hw] at h
    simp only [Option.map_some, Option.some.injEq] at h
    rw [← h]
    simp

private theorem bit_clear {f k : Nat} (h : f.testBit k = false) : ¬ f &&& 2 ^ k = 2 ^ k := by
  intro e
  have := and_two_pow_ne (v := f) (k := k)
  rw [e] at this
  have h2 := this.1 (Nat.ne_of_gt (Nat.two_pow_pos k))
  rw [h] at h2
  cases h2

/-- C91: an object that is written in any format is read back, with `File::parse`, as a file of this format, and the file gives the answers that the
object determines. -/
theorem C91_written {W : Type} (wasm : List UInt8 → Res W) (q : WasmQueries W) (crc : List UInt8 → Nat) (o : Obj.W.Object) (x : Extra)
    (hw : Writable crc o x) (out : List UInt8) (hlen : out.length < 2 ^ 63) (h : write crc o x = .ok out) :
    ∃ F : File W, File.parse wasm out = .ok F ∧ Answers q o x F := by
  unfold write at h
  unfold Writable at hw
  cases hfmt : o.format with
  | coff =>
    simp only [hfmt] at h hw
    obtain ⟨hv, hf⟩ := hw
    obtain ⟨f, m, hp, hm, hmach, -⟩ := C88_written crc o hv x.sub x.flags.forCoff hf out h
    obtain ⟨a1, a2, a3⟩ := C88_architecture o.arch x.sub o.endian m hm
    have hk : FileKind.parseAt out 0 = .ok .coff := by
      refine (C88_kind false out hlen f hp).2 rfl ?_
      rw [hmach]
      refine Classical.byContradiction fun hn => ?_
      have := (C88_header f out).2.1 m (fun a ha => hn ⟨a, ha⟩)
      rw [a1] at this
      revert this hm
      cases o.arch <;> rcases x.sub with _ | _ | _ <;> simp [CoffW.machineOf, coffMachine]
    refine ⟨.coff f, ?_, ⟨by rw [hfmt]; rfl, ?_, ?_, ?_, ?_, ?_⟩⟩
    · unfold File.parse
      rw [hk]
      simp only [Res.bind_eq, Res.ok_bind]
      rw [hp]; rfl
    · show CoffF.isLittleEndian f.header.machine = _
      unfold littleOf
      simp only [hfmt]
      rw [hmach]
      by_cases hpp : o.arch = .powerPc ∨ o.arch = .powerPc64
      · have := a3 hpp
        cases he : o.endian with
        | little => rw [this.2 he]; simp
        | big =>
          rw [he] at this
          cases hl : CoffF.isLittleEndian m with
          | true => exact absurd (this.1 hl) (by decide)
          | false => simp [hpp]
      · cases hl : CoffF.isLittleEndian m with
        | true => simp [hpp]
        | false =>
          have h2 : m = 0x1f2 := by
            refine Classical.byContradiction fun hn => ?_
            rw [((C88_header f out).2.2.2.1 m).2 hn] at hl
            cases hl
          rw [h2] at a1
          have : CoffF.architecture 0x1f2 = .powerPc := by decide
          rw [this] at a1
          exfalso
          apply hpp
          split at a1
          · right; assumption
          · left; exact a1.symm
    · show false = _
      simp [hfmt]
    · intro _
      show CoffF.architecture f.header.machine = _
      rw [hmach, a1]
      unfold archOf
      simp only [hfmt]
    · intro _ _
      show CoffF.subArchitecture f.header.machine = _
      rw [hmach, a2]
    · intro _; rfl
  | elf =>
    simp only [hfmt] at h hw
    obtain ⟨hv, hpl, hfl, hf⟩ := hw
    obtain ⟨c1, -, ⟨isRela, c2⟩, -⟩ := C67_accepted o hv _ _ out h
    have c3 : ∃ is64, elfIs64 o.arch = some is64 := by
      obtain ⟨_, is64, _, _, _, D⟩ := (ElfW.elfWrite_sat o hv _ _).ok h
      exact ⟨is64, D.cls⟩
    obtain ⟨is64, c3⟩ := c3
    have hfle : ∀ a b f, x.flags.forElf = .elf a b f → x.flags = .elf a b f := by
      intro a b f h
      cases hx : x.flags <;> rw [hx] at h <;> simp only [Flags.forElf, reduceCtorEq] at h
      cases h; rfl
    obtain ⟨m, f, hm, hp, B⟩ := C87_written o hv _ x.flags.forElf (fun a b f h => hfl a b f (hfle a b f h)) is64 isRela c3 c2 (hf is64 isRela c3 c2) hpl out h
    have hk := (C87_kind is64 out (by omega) f hp).1
    have hsub : x.sub = none := by cases hs : x.sub with
      | none => rfl
      | some s => rw [hs] at c1; cases c1
    have harch : (o.arch = .mips → ∀ a b f, x.flags = .elf a b f → f.testBit 5 = false) → f.architecture = archOf o := by
      intro hb
      unfold archOf
      simp only [hfmt]
      exact B.architecture (fun hmips a b f hx => hb hmips a b f (hfle a b f hx))
    have hend : decide (f.cfg.en = .little) = littleOf o := by
      unfold littleOf
      simp only [hfmt]
      rw [B.format]
    have hcls : f.cfg.is64 = (decide (o.format ≠ .coff) && decide (o.arch.addressSize = some 8)) := by
      rw [B.format, is64_eq c3, hfmt]; rfl
    have hkind := B.kind
    cases is64 with
    | false =>
      refine ⟨.elf32 f, ?_, ⟨by rw [hfmt]; rfl, hend, hcls, harch, fun _ _ => hsub.symm, fun _ => hkind⟩⟩
      unfold File.parse
      rw [hk]
      simp only [Res.bind_eq, Res.ok_bind, Bool.false_eq_true, if_false]
      rw [hp]; rfl
    | true =>
      refine ⟨.elf64 f, ?_, ⟨by rw [hfmt]; rfl, hend, hcls, harch, fun _ _ => hsub.symm, fun _ => hkind⟩⟩
      unfold File.parse
      rw [hk]
      simp only [Res.bind_eq, Res.ok_bind, if_true]
      rw [hp]; rfl
  | macho =>
    simp only [hfmt] at h hw
    obtain ⟨hv, hf⟩ := hw
    obtain ⟨order, f, seg, B⟩ := C71_round_trip o hv _ hf out h
    obtain ⟨h64, hp⟩ := B.parse
    have hk := (C86_kind f.cfg.is64 out hlen f hp).1
    have hend : decide (f.cfg.en = .little) = littleOf o := by
      unfold littleOf
      simp only [hfmt]
      rw [B.endian]
    have hcls : f.cfg.is64 = (decide (o.format ≠ .coff) && decide (o.arch.addressSize = some 8)) := by
      rw [is64_eq h64, hfmt]; rfl
    obtain ⟨s, hcpu, hsubt⟩ := B.cpu
    have htab : ∀ p ∈ MachoO.cpuTable, MachoF.architecture ⟨p.2.1, 0, 0, 0, 0, 0⟩ = p.1.1 ∧
        (if p.2.1 = 0x100000c ∧ p.2.2 % 2 ^ 24 = 2 then some CoffW.SubArch.arm64E else none) = p.1.2 := by decide +kernel
    obtain ⟨t1, t2⟩ := htab _ hcpu
    have harch : MachoF.architecture f.header = archOf o := by
      have e : MachoF.architecture f.header = MachoF.architecture ⟨f.header.cputype, 0, 0, 0, 0, 0⟩ := rfl
      rw [e]
      unfold archOf
      simp only [hfmt]
      exact t1
    have hsub : x.cpuSubtype = none → MachoF.subArchitecture f.header = x.sub := by
      intro hn
      rw [(C86_header f.header).2.2.1, hsubt]
      simp only [hn, Option.getD_none]
      exact t2
    have hkind : MachoF.kind f.header = .relocatable := by
      unfold MachoF.kind
      rw [if_pos B.filetype]
    cases hb : f.cfg.is64 with
    | false =>
      rw [hb] at hk hp hcls
      refine ⟨.machO32 f, ?_, ⟨by rw [hfmt]; rfl, hend, by rw [← hcls]; exact hb, fun _ => harch, fun _ h => hsub h, fun _ => hkind⟩⟩
      unfold File.parse
      rw [hk]
      simp only [Res.bind_eq, Res.ok_bind, Bool.false_eq_true, if_false]
      rw [hp]; rfl
    | true =>
      rw [hb] at hk hp hcls
      refine ⟨.machO64 f, ?_, ⟨by rw [hfmt]; rfl, hend, by rw [← hcls]; exact hb, fun _ => harch, fun _ h => hsub h, fun _ => hkind⟩⟩
      unfold File.parse
      rw [hk]
      simp only [Res.bind_eq, Res.ok_bind, if_true]
      rw [hp]; rfl
  | xcoff =>
    simp only [hfmt] at h hw
    obtain ⟨hv, hf⟩ := hw
    have c3 : ∃ is64, elfIs64 o.arch = some is64 := by
      obtain ⟨is64, _, _, _, ha, -⟩ := (XcoffW.xcoffWrite_sat o hv x.flags.forXcoff).ok h
      exact ⟨is64, ha⟩
    obtain ⟨is64, c3⟩ := c3
    obtain ⟨f, B⟩ := C74_round_trip o hv x.flags.forXcoff is64 c3 (hf is64 c3) out h
    obtain ⟨h64, hp⟩ := B.parse
    rw [c3, Option.some.injEq] at h64
    rw [← h64] at hp
    have hk := (C90_kind is64 out hlen f hp).1
    have hcls : f.is64 = (decide (o.format ≠ .coff) && decide (o.arch.addressSize = some 8)) := by
      rw [is64_eq c3, hfmt, ← h64]; rfl
    have hend : false = littleOf o := by
      unfold littleOf
      simp only [hfmt]
    have harch : f.architecture = archOf o := by
      unfold archOf Xcoff.File.architecture
      simp only [hfmt]
      have h8 := is64_eq c3
      rw [h64] at h8
      rw [← h8]
      simp
    have hkind : (∀ f, x.flags = .xcoff f → f.testBit 0 = false ∧ f.testBit 1 = false ∧ f.testBit 13 = false) → f.kind = .relocatable := by
      intro hb
      have hz : f.header.flags.testBit 0 = false ∧ f.header.flags.testBit 1 = false ∧ f.header.flags.testBit 13 = false := by
        rw [B.header.2.2]
        cases hx : x.flags with
        | xcoff g => exact hb g hx
        | _ => exact (by decide : (0:Nat).testBit 0 = false ∧ (0:Nat).testBit 1 = false ∧ (0:Nat).testBit 13 = false)
      unfold Xcoff.File.kind
      have b1 : ¬ f.header.flags &&& 2 = 2 := bit_clear hz.2.1
      have b13 : ¬ f.header.flags &&& 0x2000 = 0x2000 := bit_clear hz.2.2
      have b0 : ¬ f.header.flags &&& 1 = 1 := bit_clear hz.1
      simp only [if_neg b1, if_neg b13, if_neg b0, ne_eq, not_true, not_false_iff, if_true, if_false, b0]
    cases is64 with
    | false =>
      refine ⟨.xcoff32 f, ?_, ⟨by rw [hfmt]; rfl, hend, hcls, fun _ => harch, fun h => absurd hfmt h, hkind⟩⟩
      unfold File.parse
      rw [hk]
      simp only [Res.bind_eq, Res.ok_bind, Bool.false_eq_true, if_false]
      rw [hp]; rfl
    | true =>
      refine ⟨.xcoff64 f, ?_, ⟨by rw [hfmt]; rfl, hend, hcls, fun _ => harch, fun h => absurd hfmt h, hkind⟩⟩
      unfold File.parse
      rw [hk]
      simp only [Res.bind_eq, Res.ok_bind, if_true]
      rw [hp]; rfl

/-- The hypotheses hold for the example of C67, which is written and read as an ELF file. -/
example : ∃ (out : List UInt8) (F : File Empty), write (fun _ => 0) elfObj64 ⟨none, .none, none, none⟩ = .ok out ∧ File.parse (fun _ => .err) out = .ok F ∧ F.format = .elf ∧
    F.architecture (⟨Empty.elim, Empty.elim⟩ : WasmQueries Empty) = .x86_64 ∧ F.kind = .relocatable := by
  obtain ⟨out, hout⟩ := elfObj_small .x86_64 ⟨1, 1, none, -4, .elf 4⟩ 4 rfl (by decide) 62 rfl true rfl
  have hp : ElfBack.Plain elfObj64 := by
    intro s hs
    simp only [elfObj64, elfObj, List.mem_cons, List.not_mem_nil, or_false] at hs
    rcases hs with rfl | rfl | rfl <;> simp [ElfW.sectionFlags, ElfW.defaultSectionFlags]
  have hW : Writable (fun _ => 0) elfObj64 ⟨none, .none, none, none⟩ := by
    refine ⟨elfObj_valid _ _ (by decide), hp, by simp, ?_⟩
    intro is64 isRela h1 h2
    have e1 : is64 = true := by cases h1; rfl
    have e2 : isRela = true := by cases h2; rfl
    rw [e1, e2]
    exact elfObj_fits64
  have hlen : out.length < 2 ^ 63 := by
    have h1 := elf_length (o := elfObj64) (elfObj_valid _ _ (by decide)) hout
    have h2 : ElfO.room elfObj64 ≤ 10000 := by simp [elfObj64, elfObj, ElfO.room]
    generalize ElfO.room elfObj64 = r at h1 h2
    omega
  obtain ⟨F, h1, h2⟩ := C91_written (fun _ => .err) (⟨Empty.elim, Empty.elim⟩ : WasmQueries Empty) (fun _ => 0) elfObj64 ⟨none, .none, none, none⟩ hW out hlen hout
  exact ⟨out, F, hout, h1, h2.format, h2.arch (by intro h; cases h), h2.kind (by simp)⟩

end Obj.Props
