import Verif.Proof.PeW5

/-! Reading the image back. -/

namespace Obj.PeW
open Obj Obj.Pe Obj.Reserve Obj.Spec Obj.Spec.PeFile Obj.Spec.PeW

theorem le_at {out b : List UInt8} {o : Nat} (h : At out o b) (off w : Nat) (hw : off + w ≤ b.length) : le out (o + off) w = le b off w := by
  have e : slice out o b.length = b := h
  rw [← le_slice out o b.length off w hw, e]

theorem at_flatMap {α : Type} (enc : α → List UInt8) (size : Nat) : ∀ (xs : List α) (o i : Nat) (x : α) (out : List UInt8),
    (∀ x ∈ xs, (enc x).length = size) → At out o (xs.flatMap enc) → xs[i]? = some x → At out (o + size * i) (enc x)
  | [], _, _, _, _, _, _, h => by simp at h
  | y :: ys, o, i, x, out, hs, ha, h => by
    rw [List.flatMap_cons, Elf.at_append] at ha
    cases i with
    | zero =>
      rw [List.getElem?_cons_zero, Option.some.injEq] at h
      subst h
      exact ha.1
    | succ i =>
      rw [List.getElem?_cons_succ] at h
      have := at_flatMap enc size ys (o + (enc y).length) i x out (fun z hz => hs z (by simp [hz])) ha.2 h
      rw [hs y (by simp)] at this
      have e : o + size * (i + 1) = o + size + size * i := by rw [Nat.mul_add, Nat.mul_one]; omega
      rw [e]; exact this

/-- The ranges of the sections. -/
theorem place_mem {sa fa : Nat} (hs : Pow2 sa) (hf : Pow2 fa) : ∀ (es : List Entry) (v l : Nat) (r : SectionRange) (e : Entry),
    (r, e) ∈ (place sa fa v l es).zip es →
    v ≤ r.virtualAddress ∧ r.virtualSize = e.virtualSize ∧ r.virtualAddress + e.virtualSize ≤ endVirtual sa v es ∧
    r.fileSize = roundUp e.dataSize fa ∧ (e.dataSize = 0 → r.fileOffset = 0) ∧
    (e.dataSize ≠ 0 → l ≤ r.fileOffset ∧ r.fileOffset % fa = 0 ∧ r.fileOffset + r.fileSize ≤ endFile fa l es)
  | [], _, _, _, _, h => by simp at h
  | x :: es, v, l, r, e, h => by
    have hv : ∀ (es : List Entry) v, v ≤ endVirtual sa v es := by
      intro es
      induction es with
      | nil => exact fun v => Nat.le_refl _
      | cons y ys ih =>
        intro v
        have := ih (roundUp (v + y.virtualSize) sa)
        have := le_ru (v + y.virtualSize) hs
        show v ≤ endVirtual sa _ ys
        omega
    have h1 := le_ru (v + x.virtualSize) hs
    have h2 := le_ru l hf
    simp only [place, List.zip_cons_cons, List.mem_cons] at h
    rcases h with h | h
    · cases h
      have h3 := hv es (roundUp (v + x.virtualSize) sa)
      have h4 := endFile_le hf es (if x.dataSize = 0 then l else roundUp l fa + roundUp x.dataSize fa)
      refine ⟨Nat.le_refl _, rfl, by show v + _ ≤ endVirtual sa _ es; omega, rfl, fun h => by simp [h], fun h => ?_⟩
      rw [if_neg h] at h4
      simp only [if_neg h]
      refine ⟨h2, ru_mod l hf, ?_⟩
      show _ ≤ endFile fa (if x.dataSize = 0 then _ else _) es
      rw [if_neg h]; exact h4
    · obtain ⟨k1, k2, k3, k4, k5, k6⟩ := place_mem hs hf es _ _ r e h
      refine ⟨by omega, k2, k3, k4, k5, fun h0 => ?_⟩
      obtain ⟨m1, m2, m3⟩ := k6 h0
      refine ⟨?_, m2, m3⟩
      split at m1 <;> omega

theorem firstAddress_lt {k : Entry → Bool} {n : Nat} (hn : 0 < n) : ∀ l : List (SectionRange × Entry), (∀ x ∈ l, x.1.virtualAddress < n) → firstAddress k l < n
  | [], _ => hn
  | (r, e) :: tl, h => by
    unfold firstAddress
    split
    · exact h (r, e) (by simp)
    · exact firstAddress_lt hn tl fun x hx => h x (by simp [hx])

theorem setAll_mem : ∀ (sets : List (Nat × DataDir)) (ds : List DataDir) (d : DataDir), d ∈ setAll ds sets → d ∈ ds ∨ d ∈ sets.map (·.2)
  | [], _, _, h => .inl h
  | x :: sets, ds, d, h => by
    rcases setAll_mem sets (ds.set x.1 x.2) d h with h | h
    · rcases List.mem_or_eq_of_mem_set h with h | h
      · exact .inl h
      · exact .inr (by simp [h])
    · exact .inr (by simp only [List.map_cons, List.mem_cons]; exact .inr h)

theorem header_at' (data : List UInt8) (o : Nat) : Coff.FileHeader.decode (slice data o 20) = headerAt data o := by
  unfold Coff.FileHeader.decode headerAt
  simp (discharger := decide) only [field_le, Nat.add_zero]

/-- Values in the ranges of their fields. -/
structure OptOk (is64 : Bool) (h : OptHeader) : Prop where
  b1 : h.magic < 256 ^ 2
  b2 : h.majorLinkerVersion < 256 ^ 1
  b3 : h.minorLinkerVersion < 256 ^ 1
  b4 : h.sizeOfCode < 256 ^ 4
  b5 : h.sizeOfInitializedData < 256 ^ 4
  b6 : h.sizeOfUninitializedData < 256 ^ 4
  b7 : h.addressOfEntryPoint < 256 ^ 4
  b8 : h.baseOfCode < 256 ^ 4
  b9 : h.imageBase < 256 ^ (if is64 then 8 else 4)
  b10 : h.sectionAlignment < 256 ^ 4
  b11 : h.fileAlignment < 256 ^ 4
  b12 : h.majorOperatingSystemVersion < 256 ^ 2
  b13 : h.minorOperatingSystemVersion < 256 ^ 2
  b14 : h.majorImageVersion < 256 ^ 2
  b15 : h.minorImageVersion < 256 ^ 2
  b16 : h.majorSubsystemVersion < 256 ^ 2
  b17 : h.minorSubsystemVersion < 256 ^ 2
  b18 : h.win32VersionValue < 256 ^ 4
  b19 : h.sizeOfImage < 256 ^ 4
  b20 : h.sizeOfHeaders < 256 ^ 4
  b21 : h.checkSum < 256 ^ 4
  b22 : h.subsystem < 256 ^ 2
  b23 : h.dllCharacteristics < 256 ^ 2
  b24 : h.sizeOfStackReserve < 256 ^ (if is64 then 8 else 4)
  b25 : h.sizeOfStackCommit < 256 ^ (if is64 then 8 else 4)
  b26 : h.sizeOfHeapReserve < 256 ^ (if is64 then 8 else 4)
  b27 : h.sizeOfHeapCommit < 256 ^ (if is64 then 8 else 4)
  b28 : h.loaderFlags < 256 ^ 4
  b29 : h.numberOfRvaAndSizes < 256 ^ 4
  b30 : if is64 then h.baseOfData = none else ∃ d, h.baseOfData = some d ∧ d < 256 ^ 4

theorem opt_decode_encode {is64 : Bool} {h : OptHeader} (hb : OptOk is64 h) : OptHeader.decode is64 (OptHeader.encode is64 h) = h := by
  obtain ⟨b1, b2, b3, b4, b5, b6, b7, b8, b9, b10, b11, b12, b13, b14, b15, b16, b17, b18, b19, b20, b21, b22, b23, b24, b25, b26, b27, b28, b29, b30⟩ := hb
  unfold OptHeader.decode OptHeader.encode
  rw [← List.append_nil (encode _ _)]
  cases is64
  · simp only [Bool.false_eq_true, if_false] at b9 b24 b25 b26 b27 b30 ⊢
    obtain ⟨d, hd, b30⟩ := b30
    unfold OptHeader.fields32
    rw [hd]
    simp only [Option.getD_some]
    simp (discharger := first | assumption | decide) only [field_encode_succ, field_encode_zero, Nat.reduceSub]
    rw [← hd]
  · simp only [if_true] at b9 b24 b25 b26 b27 b30 ⊢
    unfold OptHeader.fields64
    simp (discharger := first | assumption | decide) only [field_encode_succ, field_encode_zero, Nat.reduceSub]
    rw [← b30]

end Obj.PeW
