import Verif.Proof.AddReloc
import Verif.Props.WriteObject
import Verif.Props.RelocMap

/-!
# C62: adding relocations
-/

namespace Obj.Props
open Obj Obj.W Obj.W.Spec

private theorem addReloc_none {o : Object} {i off sym : Nat} {a : Int} {fl : RelocFlags} {x : St Unit}
    (h : o.addRelocation i off sym a fl none = x) : o.addRelocInternal i ⟨off, sym, none, a, fl⟩ = x := by
  unfold Object.addRelocation at h
  rwa [if_neg (by simp)] at h

private theorem stored_of {e : Endianness} {d : List UInt8} {off n : Nat} {v : Int} (hv : v ≠ 0) (hn : n = 32 ∨ n = 64)
    (hl : off + n / 8 ≤ d.length) :
    Stored e d (d.take off ++ wrI e (n / 8) v ++ d.drop (off + n / 8)) off n v := .inr ⟨hv, hn, hl, rfl⟩

/-- **C62.** What `Stored` means for the bytes: the length does not change, no byte outside of the place
changes, and if the place held zero and the value fits then the place holds the value. -/
theorem C62_stored (e : Endianness) (d d' : List UInt8) (off n : Nat) (v : Int) (h : Stored e d d' off n v)
    (hn : n = 32 ∨ n = 64) :
    d'.length = d.length ∧
    (∀ p, p < off ∨ off + n / 8 ≤ p → d'[p]? = d[p]?) ∧
    ((d.drop off).take (n / 8) = List.replicate (n / 8) 0 →
      -((2 ^ (n - 1) : Nat) : Int) ≤ v → v < ((2 ^ (n - 1) : Nat) : Int) →
      rdI e ((d'.drop off).take (n / 8)) = v) := by
  have hr0 : ∀ w, rd e (List.replicate w 0) = 0 := by
    intro w
    have h0 : ∀ w, toLe w 0 = List.replicate w 0 := by
      intro w
      induction w with
      | zero => rfl
      | succ w ih => simp [toLe, ih, List.replicate_succ]
    have h1 : wr e w 0 = List.replicate w 0 := by
      cases e
      · exact h0 w
      · show toBe w 0 = _
        rw [toBe_eq_reverse, h0, List.reverse_replicate]
    rw [← h1, rd_wr_mod, Nat.zero_mod]
  obtain ⟨rfl, rfl⟩ | ⟨hv, _, hl, rfl⟩ := h
  · refine ⟨rfl, fun _ _ => rfl, fun hz _ _ => ?_⟩
    rw [hz]
    unfold rdI
    rw [hr0]
    obtain rfl | rfl := hn <;> simp [toSigned]
  · have hw : (wrI e (n / 8) v).length = n / 8 := by unfold wrI; rw [length_wr]
    refine ⟨by simp [hw]; omega, ?_, ?_⟩
    · rintro p (hp | hp)
      · rw [List.append_assoc, List.getElem?_append_left (by simp; omega), List.getElem?_take_of_lt hp]
      · rw [List.getElem?_append_right (by simp [hw]; omega), List.getElem?_drop]
        congr 1
        simp [hw]; omega
    · intro _ h1 h2
      rw [List.append_assoc, List.drop_left' (by simp; omega), List.take_left' hw]
      unfold rdI
      rw [hw]
      unfold wrI
      obtain rfl | rfl := hn
      · rw [rd_wr_mod]
        have := toSigned_ofSigned 4 (by decide) v (by simpa using h1) (by simpa using h2)
        rw [Nat.mod_eq_of_lt]
        · exact this
        · unfold ofSigned; omega
      · rw [rd_wr_mod]
        have := toSigned_ofSigned 8 (by decide) v (by simpa using h1) (by simpa using h2)
        rw [Nat.mod_eq_of_lt]
        · exact this
        · unfold ofSigned; omega

/-- **C62.** ELF: `add_relocation` of a generic relocation records exactly one relocation, with the ELF type
of the architecture; the addend is recorded in it if the architecture uses explicit addends, and otherwise
stored at the place; nothing else changes. -/
theorem C62_elf (o o' : Object) (i off sym n : Nat) (a : Int) (k : RelocKind) (enc : RelocEnc)
    (hf : o.format = .elf) (h : o.addRelocation i off sym a (.generic k enc n) none = (.ok (), o')) :
    ∃ s t d, o.sections[i]? = some s ∧ elfType o.arch o.endian k enc n = some t ∧
      ((elfHasAddend o.arch = .ok true ∧ d = s.data ∧
         o' = { o with sections := o.sections.set i { s with relocs := s.relocs ++ [⟨off, sym, none, a, .elf t⟩] } }) ∨
       (elfHasAddend o.arch = .ok false ∧ Stored o.endian s.data d off n a ∧
         o' = { o with
           sections := o.sections.set i { s with
             data := d, relocs := s.relocs ++ [⟨off, sym, none, 0, .elf t⟩] } })) := by
  have h := addReloc_none h
  unfold Object.addRelocInternal Object.addRelocWith Object.translate at h
  simp only [hf, Object.elfTranslate] at h
  cases ht : elfType o.arch o.endian k enc n with
  | none => rw [ht] at h; simp at h
  | some t =>
    rw [ht] at h
    simp only at h
    obtain ⟨s, imp, r', hs, ha, hc⟩ := finish_ok h
    rw [hf] at ha
    simp only [adjustAddend] at ha
    cases hb : elfHasAddend o.arch with
    | err => rw [hb] at ha; simp at ha
    | panic => rw [hb] at ha; simp at ha
    | ok b =>
      rw [hb, Res.ok_bind] at ha
      cases ha
      obtain ⟨hn, rfl⟩ | ⟨hi, hv, n', hsz, hn, hbss, hl, rfl⟩ := hc
      · cases b with
        | true => exact ⟨s, t, s.data, hs, rfl, .inl ⟨rfl, rfl, rfl⟩⟩
        | false =>
          have h0 : a = 0 := by simpa using hn
          subst h0
          exact ⟨s, t, s.data, hs, rfl, .inr ⟨rfl, .inl ⟨rfl, rfl⟩, rfl⟩⟩
      · cases b with
        | true => simp at hi
        | false =>
          have hnn : n' = n := by
            rw [hf] at hsz
            simp only [relocSize] at hsz
            exact elf_size ht hsz
          subst hnn
          exact ⟨s, t, _, hs, rfl, .inr ⟨rfl, stored_of hv hn hl, rfl⟩⟩

/-- **C62.** Which architectures store ELF addends in the section data (`SHT_REL`); all
other supported ones have them in the relocation (`SHT_RELA`). -/
theorem C62_elf_rela (a : Arch) (b : Bool) (h : elfHasAddend a = .ok b) :
    b = false ↔ a ∈ [Arch.arm, .bpf, .i386, .hppa, .mips, .sbf, .superH] := by
  cases a <;> cases h <;> decide

/-- **C62.** ELF: `add_relocation` succeeds for an existing section and a supported relocation, if the addend
is explicit or zero or has a place of 32 or 64 bits in an initialized section. -/
theorem C62_elf_succeeds (o : Object) (i off sym n t : Nat) (a : Int) (k : RelocKind) (enc : RelocEnc) (s : Section)
    (hf : o.format = .elf) (hs : o.sections[i]? = some s) (ht : elfType o.arch o.endian k enc n = some t)
    (hc : elfHasAddend o.arch = .ok true ∨ (elfHasAddend o.arch = .ok false ∧ (a = 0 ∨
      (s.kind ≠ .uninitializedData ∧ s.kind ≠ .uninitializedTls ∧ elfRelocSize o.arch t = .ok n ∧
        (n = 32 ∨ n = 64) ∧ off + n / 8 ≤ s.data.length)))) :
    ∃ o', o.addRelocation i off sym a (.generic k enc n) none = (.ok (), o') := by
  unfold Object.addRelocation
  rw [if_neg (by simp)]
  unfold Object.addRelocInternal Object.addRelocWith Object.translate
  simp only [hf, Object.elfTranslate, ht]
  have ha : ∀ b, elfHasAddend o.arch = .ok b → adjustAddend o.format o.arch ⟨off, sym, none, a, .elf t⟩ =
      .ok (!b, ⟨off, sym, none, a, .elf t⟩) := by
    intro b hb
    rw [hf]
    simp only [adjustAddend, hb, Res.ok_bind]
  obtain hb | ⟨hb, hc⟩ := hc
  · exact ⟨_, finish_plain hs (ha _ hb) (by simp)⟩
  · by_cases h0 : a = 0
    · exact ⟨_, finish_plain hs (ha _ hb) (by simp [h0])⟩
    · obtain hc | ⟨hk1, hk2, hz, hn, hl⟩ := hc
      · exact absurd hc h0
      · refine ⟨_, finish_implicit hs (ha _ hb) h0 (n := n) (by rw [hf]; exact hz) hn ?_ hl⟩
        cases hk : s.kind <;> simp_all [SectionKind.isBss]

/-- The kind with which the COFF writer represents a kind. -/
private def coffRel (k : RelocKind) : RelocKind := if k = .pltRelative then .relative else k

private theorem coff_finish {o o' : Object} {i : Nat} {r : Reloc} {t : Nat} (hf : o.format = .coff)
    (hr : r.flags = .coff t) (h : o.finishReloc i r = (.ok (), o')) :
    ∃ s d pc, o.sections[i]? = some s ∧ coffPcOffset o.arch t = .ok pc ∧
      (r.addend + pc ≠ 0 → ∃ n, coffRelocSize o.arch t = .ok n ∧ Stored o.endian s.data d r.offset n (r.addend + pc)) ∧
      (r.addend + pc = 0 → d = s.data) ∧
      o' = { o with
        sections := o.sections.set i { s with
          data := d, relocs := s.relocs ++ [⟨r.offset, r.symbol, r.subtractor, 0, .coff t⟩] } } := by
  obtain ⟨s, imp, r', hs, ha, hc⟩ := finish_ok h
  rw [hf] at ha
  simp only [adjustAddend, hr] at ha
  cases hb : coffPcOffset o.arch t with
  | err => rw [hb] at ha; simp at ha
  | panic => rw [hb] at ha; simp at ha
  | ok pc =>
    rw [hb, Res.ok_bind] at ha
    unfold addI64 at ha
    split at ha
    · rw [Res.ok_bind] at ha
      cases ha
      obtain ⟨hn, rfl⟩ | ⟨hi, hv, n', hsz, hn, hbss, hl, rfl⟩ := hc
      · have h0 : r.addend + pc = 0 := by simpa using hn
        refine ⟨s, s.data, pc, hs, rfl, fun h => absurd h0 h, fun _ => rfl, ?_⟩
        rw [h0]
      · rw [hf] at hsz
        simp only [relocSize, hr] at hsz
        exact ⟨s, _, pc, hs, rfl, fun _ => ⟨n', hsz, stored_of hv hn hl⟩, fun h => absurd h hv, rfl⟩
    · simp at ha

/-- **C62.** COFF: `add_relocation` of a generic relocation (other than through the GOT) records exactly one
relocation.  Its type is read back with the kind (relative for a PLT relocation) and size, and with an
addend such that the value stored at the place plus the addend read is the requested addend; nothing else
changes. -/
theorem C62_coff (o o' : Object) (i off sym n m : Nat) (a : Int) (k : RelocKind) (enc : RelocEnc)
    (hf : o.format = .coff) (hm : coffMachine o.arch o.endian = .ok m) (hk : k ≠ .gotRelative)
    (hn : n = 32 ∨ n = 64)
    (h : o.addRelocation i off sym a (.generic k enc n) none = (.ok (), o')) :
    ∃ s t d enc' v, o.sections[i]? = some s ∧
      coffKind m t = (if k = .pltRelative then .relative else k, enc', n, a - v) ∧
      Stored o.endian s.data d off n v ∧
      o' = { o with
        sections := o.sections.set i { s with
          data := d, relocs := s.relocs ++ [⟨off, sym, none, 0, .coff t⟩] } } := by
  have h := addReloc_none h
  unfold Object.addRelocInternal Object.addRelocWith Object.translate at h
  simp only [hf, Object.coffTranslate, if_neg hk] at h
  have key : ∀ k', (match (match coffType o.arch k' enc n a with
        | some t => ((.ok { (⟨off, sym, none, a, .generic k enc n⟩ : Reloc) with flags := .coff t }, o) : St Reloc)
        | none => (.err, o)) with
      | (.err, o) => (.err, o)
      | (.panic, o) => (.panic, o)
      | (.ok r, o) => o.finishReloc i r) = (.ok (), o') →
      ∃ s t d enc' v, o.sections[i]? = some s ∧
      coffKind m t = (k', enc', n, a - v) ∧
      Stored o.endian s.data d off n v ∧
      o' = { o with
        sections := o.sections.set i { s with
          data := d, relocs := s.relocs ++ [⟨off, sym, none, 0, .coff t⟩] } } := by
    intro k' h
    cases ht : coffType o.arch k' enc n a with
    | none => rw [ht] at h; simp at h
    | some t =>
      rw [ht] at h
      simp only at h
      obtain ⟨s, d, pc, hs, hpc, h1, h2, he⟩ := coff_finish hf rfl h
      obtain ⟨enc', off', hk', hp', _⟩ := C63_coff_write_read o.arch o.endian k' enc n t m a hm ht
      rw [hpc] at hp'
      cases hp'
      refine ⟨s, t, d, enc', a + pc, hs, by rw [hk']; congr 3; omega, ?_, he⟩
      by_cases h0 : a + pc = 0
      · exact .inl ⟨h0, h2 h0⟩
      · obtain ⟨n', hn', hst⟩ := h1 h0
        rw [C63_coff_size o.arch k' enc n t a ht (.inr hn)] at hn'
        cases hn'
        exact hst
  by_cases hp : k = .pltRelative
  · rw [if_pos hp] at h ⊢
    exact key _ h
  · rw [if_neg hp] at h ⊢
    exact key _ h

/-- **C62.** XCOFF: `add_relocation` of a generic relocation of 32 or 64 bits records exactly one
relocation.  It is read back with the kind and size, and with an addend such that the value stored at the
place plus the addend read is the requested addend; nothing else changes. -/
theorem C62_xcoff (o o' : Object) (i off sym n : Nat) (a : Int) (k : RelocKind) (enc : RelocEnc)
    (hf : o.format = .xcoff) (hn : n = 32 ∨ n = 64)
    (h : o.addRelocation i off sym a (.generic k enc n) none = (.ok (), o')) :
    ∃ s t d v, o.sections[i]? = some s ∧ xcoffKind t (n - 1) = (k, n, a - v) ∧
      Stored o.endian s.data d off n v ∧
      o' = { o with
        sections := o.sections.set i { s with
          data := d, relocs := s.relocs ++ [⟨off, sym, none, 0, .xcoff t (n - 1)⟩] } } := by
  have h := addReloc_none h
  unfold Object.addRelocInternal Object.addRelocWith Object.translate at h
  simp only [hf, Object.xcoffTranslate] at h
  cases ht : xcoffType k with
  | none => rw [ht] at h; simp at h
  | some t =>
    rw [ht] at h
    simp only at h
    rw [if_neg (by omega)] at h
    simp only at h
    obtain ⟨s, imp, r', hs, ha, hc⟩ := finish_ok h
    have hrd := C63_xcoff_write_read k n t ht (by omega) (by omega)
    have hsize : ∀ (r'' : Reloc) (n' : Nat), r''.flags = .xcoff t (n - 1) →
        relocSize o.format o.arch r'' = .ok n' → n' = n := by
      intro r'' n' hr hsz
      rw [hf] at hsz
      simp only [relocSize, hr] at hsz
      rw [if_pos (by omega)] at hsz
      cases hsz
      omega
    rw [hf] at ha
    simp only [adjustAddend] at ha
    by_cases h2 : t = 2
    · have hk : k = .relative := by subst h2; revert ht; cases k <;> simp [xcoffType]
      rw [if_pos h2] at ha
      unfold addI64 at ha
      split at ha
      · rw [Res.ok_bind] at ha
        cases ha
        rw [if_pos hk] at hrd
        obtain ⟨hn0, rfl⟩ | ⟨hi, hv, n', hsz, hn', hbss, hl, rfl⟩ := hc
        · have h0 : a + 4 = 0 := by simpa using hn0
          refine ⟨s, t, s.data, a + 4, hs, by rw [hrd]; congr 2; omega, .inl ⟨h0, rfl⟩, ?_⟩
          rw [h0]
        · have := hsize _ _ rfl hsz
          subst this
          exact ⟨s, t, _, a + 4, hs, by rw [hrd]; congr 2; omega, stored_of hv hn' hl, rfl⟩
      · simp at ha
    · have hk : k ≠ .relative := by rintro rfl; cases ht; exact h2 rfl
      rw [if_neg h2] at ha
      cases ha
      rw [if_neg hk] at hrd
      obtain ⟨hn0, rfl⟩ | ⟨hi, hv, n', hsz, hn', hbss, hl, rfl⟩ := hc
      · have h0 : a = 0 := by simpa using hn0
        subst h0
        exact ⟨s, t, s.data, 0, hs, by rw [hrd]; rfl, .inl ⟨rfl, rfl⟩, rfl⟩
      · have := hsize _ _ rfl hsz
        subst this
        exact ⟨s, t, _, a, hs, by rw [hrd]; congr 2; omega, stored_of hv hn' hl, rfl⟩

/-- **C62.** Mach-O: `add_relocation` and `add_relocation_with_subtractor` of a generic relocation (other
than a plain relative one on ARM64) record exactly one relocation with the subtractor.  For ARM64 calls the
addend is recorded, otherwise the addend plus the pc offset is stored at the place; nothing else changes. -/
theorem C62_macho (o o' : Object) (i off sym n : Nat) (a : Int) (k : RelocKind) (enc : RelocEnc) (sub : Option Nat)
    (hf : o.format = .macho)
    (hp : ¬ ((o.arch = .aarch64 ∨ o.arch = .aarch64_Ilp32) ∧ k = .relative ∧ enc = .generic))
    (h : o.addRelocation i off sym a (.generic k enc n) sub = (.ok (), o')) :
    ∃ s t pcrel len d, o.sections[i]? = some s ∧ machoType o.arch k enc = some (pcrel, t) ∧
      machoLength o.arch n = some len ∧
      ((o.arch = .aarch64 ∧ t = 2 ∧ d = s.data ∧
         o' = { o with
           sections := o.sections.set i { s with
             relocs := s.relocs ++ [⟨off, sym, sub, a, .macho t pcrel len⟩] } }) ∨
       (¬ (o.arch = .aarch64 ∧ t = 2) ∧ (a + machoPcOffset o.arch t pcrel ≠ 0 → n = 32 ∨ n = 64 ∨
            (o.arch = .aarch64 ∧ (n = 12 ∨ n = 21 ∨ n = 26))) ∧
         Stored o.endian s.data d off (8 * 2 ^ len) (a + machoPcOffset o.arch t pcrel) ∧
         o' = { o with
           sections := o.sections.set i { s with
             data := d, relocs := s.relocs ++ [⟨off, sym, sub, 0, .macho t pcrel len⟩] } })) := by
  unfold Object.addRelocation at h
  rw [if_neg (by simp [hf])] at h
  unfold Object.addRelocInternal Object.addRelocWith Object.translate at h
  simp only [hf, Object.machoTranslate] at h
  cases hl : machoLength o.arch n with
  | none => rw [hl] at h; simp at h
  | some len =>
    rw [hl] at h
    simp only at h
    have hlen : len = 0 ∨ len = 1 ∨ (len = 2 ∧ (n = 32 ∨ (o.arch = .aarch64 ∧ (n = 12 ∨ n = 21 ∨ n = 26)))) ∨
        (len = 3 ∧ n = 64) := by
      unfold machoLength at hl
      simp only at hl
      by_cases hc : o.arch = .aarch64 ∧ (n = 12 ∨ n = 21 ∨ n = 26)
      · rw [if_pos hc] at hl
        cases hl
        exact .inr (.inr (.inl ⟨rfl, .inr hc⟩))
      · rw [if_neg hc] at hl
        repeat' split at hl
        · cases hl; exact .inl rfl
        · cases hl; exact .inr (.inl rfl)
        · cases hl; rename_i hh; exact .inr (.inr (.inl ⟨rfl, .inl hh⟩))
        · cases hl; rename_i hh; exact .inr (.inr (.inr ⟨rfl, hh⟩))
        · cases hl
    cases ht : machoType o.arch k enc with
    | none => rw [ht] at h; simp at h
    | some x =>
      obtain ⟨pcrel, t⟩ := x
      rw [ht] at h
      simp only at h
      rw [if_neg hp] at h
      simp only at h
      have h34 : o.arch = .aarch64 → t ≠ 3 ∧ t ≠ 4 := by
        intro ha
        rw [ha] at ht
        unfold machoType at ht
        simp only at ht
        split at ht <;> cases ht <;> decide
      obtain ⟨s, imp, r', hs, ha, hc⟩ := finish_ok h
      rw [hf] at ha
      simp only [adjustAddend] at ha
      unfold addI64 at ha
      split at ha
      · rw [Res.ok_bind] at ha
        cases ha
        have hpc : o.arch = .aarch64 → machoPcOffset o.arch t pcrel = 0 := by
          intro ha; rw [ha]; unfold machoPcOffset; split <;> rfl
        refine ⟨s, t, pcrel, len, ?_⟩
        by_cases hex : o.arch = .aarch64 ∧ t = 2
        · have himp : machoImplicit o.arch t = false := by
            rw [hex.1, hex.2]; rfl
          rw [himp] at hc
          obtain ⟨_, rfl⟩ | ⟨hi, _⟩ := hc
          · refine ⟨s.data, hs, rfl, rfl, .inl ⟨hex.1, hex.2, rfl, ?_⟩⟩
            rw [hpc hex.1]
            simp
          · cases hi
        · have himp : machoImplicit o.arch t = true := by
            unfold machoImplicit
            by_cases ha : o.arch = .aarch64
            · have := h34 ha
              have h2 : t ≠ 2 := fun h => hex ⟨ha, h⟩
              simp [this, h2]
            · simp [ha]
          rw [himp] at hc
          obtain ⟨hn0, rfl⟩ | ⟨hi, hv, n', hsz, hn', hbss, hl', rfl⟩ := hc
          · have h0 : a + machoPcOffset o.arch t pcrel = 0 := by simpa using hn0
            refine ⟨s.data, hs, rfl, rfl, .inr ⟨hex, fun h => absurd h0 h, .inl ⟨h0, rfl⟩, ?_⟩⟩
            rw [h0]
          · rw [hf] at hsz
            simp only [relocSize, machoRelocSize] at hsz
            have hz : n' = 8 * 2 ^ len ∧ (len = 2 ∨ len = 3) := by
              obtain rfl | rfl | ⟨rfl, _⟩ | ⟨rfl, _⟩ := hlen <;> cases hsz <;> simp_all
            refine ⟨_, hs, rfl, rfl, .inr ⟨hex, fun _ => ?_, ?_, rfl⟩⟩
            · obtain rfl | rfl | ⟨rfl, hh | hh⟩ | ⟨rfl, hh⟩ := hlen
              · simp at hz
              · simp at hz
              · exact .inl hh
              · exact .inr (.inr hh)
              · exact .inr (.inl hh)
            · rw [← hz.1]; exact stored_of hv hn' hl'
      · simp at ha

/-- **C62.** Mach-O on ARM64: a plain relative relocation is recorded as a pair, with the section symbol of
the section as subtractor; what is stored at the place is the addend minus the offset. -/
theorem C62_macho_pair (o o1 o' : Object) (i off sym n k : Nat) (a : Int) (sub : Option Nat)
    (hf : o.format = .macho) (hp : o.arch = .aarch64 ∨ o.arch = .aarch64_Ilp32) (hn : n = 32 ∨ n = 64)
    (hk : o.sectionSymbol i = .ok (k, o1))
    (h : o.addRelocation i off sym a (.generic .relative .generic n) sub = (.ok (), o')) :
    ∃ s d, o1.sections[i]? = some s ∧
      Stored o.endian s.data d off n (a - toI64 off) ∧
      o' = { o1 with
           sections := o1.sections.set i { s with
             data := d, relocs := s.relocs ++ [⟨off, sym, some k, 0, .macho 0 false (if n = 64 then 3 else 2)⟩] } } := by
  unfold Object.addRelocation at h
  rw [if_neg (by simp [hf])] at h
  unfold Object.addRelocInternal Object.addRelocWith Object.translate at h
  simp only [hf, Object.machoTranslate] at h
  have hl : machoLength o.arch n = some (if n = 64 then 3 else 2) := by
    obtain ha | ha := hp <;> obtain rfl | rfl := hn <;> rw [ha] <;> rfl
  have ht : machoType o.arch .relative .generic = some (false, 0) := by
    obtain ha | ha := hp <;> rw [ha] <;> rfl
  rw [hl, ht] at h
  simp only [hk] at h
  rw [if_pos ⟨hp, trivial, trivial⟩] at h
  have hst : o1.format = .macho ∧ o1.arch = o.arch ∧ o1.endian = o.endian := by
    obtain ⟨s, _, ⟨_, rfl⟩ | ⟨_, _, y, _, _, _, _, _, rfl⟩⟩ := C61_section_symbol o o1 i k hk
    · exact ⟨hf, rfl, rfl⟩
    · exact ⟨hf, rfl, rfl⟩
  by_cases hr : -9223372036854775808 ≤ a + -toI64 off ∧ a + -toI64 off ≤ 9223372036854775807
  · have hadd : addI64 a (-toI64 off) = .ok (a + -toI64 off) := by unfold addI64; rw [if_pos hr]
    · rw [hadd] at h
      simp only at h
      obtain ⟨s, imp, r', hs, ha, hc⟩ := finish_ok h
      rw [hst.1] at ha
      have hadd2 : addI64 (a + -toI64 off) 0 = .ok (a + -toI64 off + 0) := by
        unfold addI64; rw [if_pos (by rw [Int.add_zero]; exact hr)]
      simp only [adjustAddend, machoPcOffset, Bool.false_eq_true, if_false, hadd2, Res.ok_bind] at ha
      cases ha
      have himp : machoImplicit o1.arch 0 = true := by
        rw [hst.2.1]; obtain ha | ha := hp <;> rw [ha] <;> rfl
      rw [himp] at hc
      have he : a + -toI64 off + 0 = a - toI64 off := by omega
      obtain ⟨hn0, rfl⟩ | ⟨hi, hv, n', hsz, hn', hbss, hl', rfl⟩ := hc
      · have h0 : a + -toI64 off + 0 = 0 := by simpa using hn0
        refine ⟨s, s.data, hs, .inl ⟨by omega, rfl⟩, ?_⟩
        rw [h0]
      · rw [hst.1] at hsz
        simp only [relocSize, machoRelocSize] at hsz
        have hz : n' = n := by
          obtain rfl | rfl := hn <;> simp at hsz <;> omega
        subst hz
        refine ⟨s, _, hs, ?_, rfl⟩
        simp only at hv hl'
        rw [hst.2.2]
        simp only
        rw [he] at hv ⊢
        exact stored_of hv hn' hl'
  · have hadd : addI64 a (-toI64 off) = .panic := by unfold addI64; rw [if_neg hr]
    rw [hadd] at h
    simp at h

/-- **C62.** A call of `add_relocation` that fails changes no existing section, other than that a section may
get its section symbol. -/
theorem C62_error (o o' : Object) (i off sym : Nat) (a : Int) (fl : RelocFlags) (sub : Option Nat)
    (h : o.addRelocation i off sym a fl sub = (.err, o')) (j : Nat) (s : Section) (hs : o.sections[j]? = some s) :
    ∃ y, o'.sections[j]? = some { s with symbol := y } := by
  have c : Chain (fun e => ∀ j, j < o.sections.length → ¬ Hits j e) o o' := by
    unfold Object.addRelocation at h
    split at h
    · cases h; exact .nil
    · unfold Object.addRelocInternal Object.addRelocWith at h
      have c := translate_chain o i { offset := off, symbol := sym, subtractor := sub, addend := a, flags := fl }
        (P := fun e => ∀ j, j < o.sections.length → ¬ Hits j e)
        (by simp [Hits]) (by simp [Hits]) (fun j hj => by simp only [Hits]; omega)
        (fun j hj => by simp only [Hits]; omega) (by simp [Hits]) (by simp [Hits])
      generalize o.translate Object.coffStub i _ = x at h c
      obtain ⟨x1, x2⟩ := x
      cases x1 with
      | err => cases h; exact c
      | panic => cases h
      | ok r =>
        have := finish_err h
        subst this
        exact c
  obtain ⟨s', hs', r⟩ := c.sec hs
  refine ⟨s'.symbol, ?_⟩
  rw [hs']
  congr 1
  exact r.frame (fun e he hp => hp j (getElem_lt hs) he)

/-- **C62 (specification).** The result of adding a relative relocation against `sym`, of which the value
stored and the type read back give addend `a`, to section `i` of `o`. -/
def CoffRelative (o o' : Object) (m i off sym n : Nat) (a : Int) : Prop :=
  ∃ s t d enc' v, o.sections[i]? = some s ∧ coffKind m t = (.relative, enc', n, a - v) ∧
    Stored o.endian s.data d off n v ∧
    o' = { o with
      sections := o.sections.set i { s with
        data := d, relocs := s.relocs ++ [⟨off, sym, none, 0, .coff t⟩] } }

private theorem coff_finish_rel {o o' : Object} {m i off sym n : Nat} {a : Int} {enc : RelocEnc} {t : Nat}
    (hf : o.format = .coff) (hm : coffMachine o.arch o.endian = .ok m) (hn : n = 32 ∨ n = 64)
    (ht : coffType o.arch .relative enc n a = some t)
    (h : o.finishReloc i ⟨off, sym, none, a, .coff t⟩ = (.ok (), o')) : CoffRelative o o' m i off sym n a := by
  obtain ⟨s, d, pc, hs, hpc, h1, h2, he⟩ := coff_finish hf rfl h
  obtain ⟨enc', off', hk', hp', _⟩ := C63_coff_write_read o.arch o.endian _ enc n t m a hm ht
  rw [hpc] at hp'
  cases hp'
  refine ⟨s, t, d, enc', a + pc, hs, by rw [hk']; congr 3; omega, ?_, he⟩
  by_cases h0 : a + pc = 0
  · exact .inl ⟨h0, h2 h0⟩
  · obtain ⟨n', hn', hst⟩ := h1 h0
    rw [C63_coff_size o.arch _ enc n t a ht (.inr hn)] at hn'
    cases hn'
    exact hst

private theorem got_split {o o' : Object} {m i off sym n : Nat} {a : Int} {enc : RelocEnc}
    (hf : o.format = .coff) (hn : n = 32 ∨ n = 64)
    (h : o.addRelocation i off sym a (.generic .gotRelative enc n) none = (.ok (), o')) :
    ∃ id o1, o.coffStub sym = (.ok id, o1) ∧ (o1.format = .coff → coffMachine o1.arch o1.endian = .ok m →
      CoffRelative o1 o' m i off id n a) := by
  have h := addReloc_none h
  unfold Object.addRelocInternal Object.addRelocWith Object.translate at h
  simp only [hf, Object.coffTranslate, if_true] at h
  cases hst : o.coffStub sym with
  | mk x o1 =>
    rw [hst] at h
    cases x with
    | err => simp at h
    | panic => simp at h
    | ok id =>
      refine ⟨id, o1, rfl, fun hf1 hm1 => ?_⟩
      simp only at h
      cases ht : coffType o1.arch .relative enc n a with
      | none => rw [ht] at h; simp at h
      | some t =>
        rw [ht] at h
        simp only at h
        exact coff_finish_rel hf1 hm1 hn ht h

/-- **C62.** COFF: a relocation through the GOT becomes a relative relocation against a stub symbol for the
target, once that exists. -/
theorem C62_coff_got (o o' : Object) (i off sym id n m : Nat) (a : Int) (enc : RelocEnc)
    (hf : o.format = .coff) (hm : coffMachine o.arch o.endian = .ok m) (hn : n = 32 ∨ n = 64)
    (hs : o.stubs sym = some id)
    (h : o.addRelocation i off sym a (.generic .gotRelative enc n) none = (.ok (), o')) :
    CoffRelative o o' m i off id n a := by
  obtain ⟨id', o1, h1, h2⟩ := got_split (m := m) hf hn h
  unfold Object.coffStub at h1
  rw [hs] at h1
  cases h1
  exact h2 hf hm

/-- **C62.** COFF: the first relocation through the GOT for a target creates the stub: a section
`.rdata$.refptr` with one zero address and an absolute relocation of address size against the target, and a
symbol `.refptr.` and the name of the target for it; the relocation is then relative to that symbol. -/
theorem C62_coff_got_new (o o' : Object) (i off sym n m asize : Nat) (a : Int) (enc : RelocEnc) (y : Symbol)
    (hf : o.format = .coff) (hm : coffMachine o.arch o.endian = .ok m) (hn : n = 32 ∨ n = 64)
    (hi : i < o.sections.length)
    (ha : (asize = 8 ∧ (o.arch = .x86_64 ∨ o.arch = .aarch64)) ∨ (asize = 4 ∧ (o.arch = .i386 ∨ o.arch = .arm)))
    (hs : o.stubs sym = none) (hy : o.symbols[sym]? = some y)
    (h : o.addRelocation i off sym a (.generic .gotRelative enc n) none = (.ok (), o')) :
    ∃ o1 sec t0 enc0 y', o1.sections = o.sections ++ [sec] ∧
      sec.name = ascii ".rdata$.refptr" ∧ sec.kind = .readOnlyData ∧ sec.data = List.replicate asize 0 ∧
      sec.align = asize ∧ sec.relocs = [⟨0, sym, none, 0, .coff t0⟩] ∧
      coffKind m t0 = (.absolute, enc0, asize * 8, 0) ∧
      o1.symbols = o.symbols ++ [y'] ∧ y'.name = ascii ".refptr." ++ y.name ∧
      y'.section_ = .inSec o.sections.length ∧ y'.value = 0 ∧ y'.size = asize ∧
      o1.stubs sym = some o.symbols.length ∧
      CoffRelative o1 o' m i off o.symbols.length n a := by
  obtain ⟨id', o1, h1, h2⟩ := got_split (m := m) hf hn h
  have hsz : o.arch.addressSize = some asize := by
    obtain ⟨rfl, h | h⟩ | ⟨rfl, h | h⟩ := ha <;> rw [h] <;> rfl
  have ht0 : ∃ t0, coffType o.arch .absolute .generic (asize * 8) 0 = some t0 := by
    obtain ⟨rfl, h | h⟩ | ⟨rfl, h | h⟩ := ha <;> rw [h] <;> exact ⟨_, rfl⟩
  have hpow : PowTwo asize := by
    obtain ⟨rfl, _⟩ | ⟨rfl, _⟩ := ha
    · exact ⟨3, rfl⟩
    · exact ⟨2, rfl⟩
  obtain ⟨t0, ht0⟩ := ht0
  have h0 : coffPcOffset o.arch t0 = .ok 0 := by
    revert ht0
    obtain ⟨rfl, h | h⟩ | ⟨rfl, h | h⟩ := ha <;> rw [h] <;> intro ht0 <;> cases ht0 <;> rfl
  obtain ⟨enc0, pc, hk0, hp0, _⟩ := C63_coff_write_read o.arch o.endian _ _ _ t0 m 0 hm ht0
  rw [h0] at hp0
  cases hp0
  unfold Object.coffStub at h1
  rw [hs] at h1
  simp only [hsz] at h1
  generalize hr : o.addSection _ _ _ = r at h1
  have hr1 : r.1 = o.sections.length := by rw [← hr]; rfl
  have hrf : r.2.format = .coff ∧ r.2.arch = o.arch ∧ r.2.endian = o.endian ∧ r.2.symbols = o.symbols ∧
      r.2.stubs = o.stubs := by rw [← hr]; exact ⟨hf, rfl, rfl, rfl, rfl⟩
  have hrs : ∃ sec, r.2.sections = o.sections ++ [sec] ∧ sec.name = ascii ".rdata$.refptr" ∧
      sec.kind = .readOnlyData ∧ sec.data = [] ∧ sec.relocs = [] := by
    rw [← hr]; exact ⟨_, rfl, by rfl, rfl, rfl, rfl⟩
  obtain ⟨sec, hsec, hn1, hk1, hd1, hre1⟩ := hrs
  clear hr
  have hsd : ∃ o2, r.2.setSectionData r.1 (List.replicate asize 0) asize = .ok o2 ∧
      o2.format = .coff ∧ o2.arch = o.arch ∧ o2.endian = o.endian ∧ o2.symbols = o.symbols ∧
      o2.sections = o.sections ++ [{ sec with data := List.replicate asize 0, size := (List.replicate asize (0 : UInt8)).length, align := asize }] := by
    have := (C43_set_data r.2 _ r.1 (List.replicate asize 0) asize).2
      ⟨sec, by rw [hsec, hr1]; exact List.getElem?_concat_length, by rw [hk1]; decide, by rw [hk1]; decide, hpow, hd1, rfl⟩
    refine ⟨_, this, hrf.1, hrf.2.1, hrf.2.2.1, hrf.2.2.2.1, ?_⟩
    simp only [hsec, hr1]
    rw [List.set_append_right _ _ (Nat.le_refl _), Nat.sub_self, List.set_cons_zero]
  obtain ⟨o2, hsd, e1, e2, e3, e4, e5⟩ := hsd
  rw [hsd] at h1
  simp only at h1
  have hrel : ∀ oo : Object, oo.format = .coff → oo.arch = o.arch →
      oo.translate (fun o _ => (.panic, o)) r.1 ⟨0, sym, none, 0, .generic .absolute .generic (asize * 8)⟩ =
        (.ok ⟨0, sym, none, 0, .coff t0⟩, oo) := by
    intro oo hoo hoa
    unfold Object.translate Object.coffTranslate
    simp only [hoo]
    rw [if_neg (by decide), if_neg (by decide), hoa, ht0]
  unfold Object.addRelocWith at h1
  rw [hrel _ e1 e2] at h1
  simp only at h1
  rw [finish_plain (s := { sec with data := List.replicate asize 0, size := (List.replicate asize (0 : UInt8)).length, align := asize })
    (imp := true) (r' := ⟨0, sym, none, 0, .coff t0⟩)
    (by rw [e5, hr1]; exact List.getElem?_concat_length) (by
      simp only [e1, e2, adjustAddend, h0]; rfl) (by simp)] at h1
  simp only [e4, hy] at h1
  obtain ⟨q1, q2⟩ := Prod.mk.inj h1
  cases q1
  refine ⟨o1, { sec with
      data := List.replicate asize 0, size := (List.replicate asize (0 : UInt8)).length, align := asize,
      relocs := sec.relocs ++ [⟨0, sym, none, 0, .coff t0⟩] },
    t0, enc0,
    { name := [46, 114, 101, 102, 112, 116, 114, 46] ++ y.name, value := 0, size := asize, kind := .data,
      scope := .compilation, weak := false, section_ := .inSec r.1, flags := .none },
    ?_, hn1, hk1, rfl, rfl, by rw [hre1]; rfl, hk0, ?_, by rfl, ?_, rfl, rfl, ?_, ?_⟩
  · rw [← q2]
    simp only [Object.addRawSymbol, e5, hr1]
    rw [List.set_append_right _ _ (Nat.le_refl _), Nat.sub_self, List.set_cons_zero]
  · rw [← q2]
    simp only [Object.addRawSymbol, e4]
  · simp only [hr1]
  · rw [← q2]
    simp [Obj.W.insert, Object.addRawSymbol, e4]
  · have hf1 : o1.format = .coff := by rw [← q2]; exact e1
    have hm1 : coffMachine o1.arch o1.endian = .ok m := by
      rw [← q2]; simp only [Object.addRawSymbol]; rw [e2, e3]; exact hm
    have := h2 hf1 hm1
    simp only [Object.addRawSymbol, e4] at this
    exact this

/-! ## Concrete cases -/

private def target : Symbol :=
  { name := [102], value := 0, size := 0, kind := .text, scope := .dynamic, weak := false,
    section_ := .undefined, flags := .none }

private def before (f : Format) (a : Arch) : List Op :=
  [.addSymbol target, .sectionId .text, .appendSectionData 0 (List.replicate 16 0) 4]

private def after (f : Format) (a : Arch) (k : RelocKind) (x : Int) : Option (List Section) :=
  (run (Object.new f a .little) (before f a ++ [.addRelocation 0 4 0 x (.generic k .generic 32) none])).map
    (·.sections)

example : (after .elf .x86_64 .relative (-4)).map (·.map (·.relocs)) =
    some [[⟨4, 0, none, -4, .elf 2⟩]] := by decide

example : (after .elf .i386 .relative (-4)).map (·.map (fun s => (s.relocs, (s.data.drop 4).take 4))) =
    some [([⟨4, 0, none, 0, .elf 2⟩], [252, 255, 255, 255])] := by decide

example : (after .coff .x86_64 .relative 6).map (·.map (fun s => (s.relocs, (s.data.drop 4).take 4))) =
    some [([⟨4, 0, none, 0, .coff 4⟩], [10, 0, 0, 0])] := by decide

example : (after .coff .x86_64 .gotRelative (-4)).map (·.map (·.relocs)) =
    some [[⟨4, 1, none, 0, .coff 4⟩], [⟨0, 0, none, 0, .coff 1⟩]] := by decide

example : (after .macho .aarch64 .relative 0).map (·.map (fun s => (s.relocs, (s.data.drop 4).take 4))) =
    some [([⟨4, 0, some 1, 0, .macho 0 false 2⟩], [252, 255, 255, 255])] := by decide

end Obj.Props
