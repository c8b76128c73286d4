import Verif.Proof.MachoReloc
import Verif.Props.AddReloc

/-!
# C64: Mach-O relocation records
-/

namespace Obj.Props

open Obj.W Obj.W.Spec Obj.MachoSpec

/-- **C64.** A record whose fields fit is read back from its little-endian bytes. -/
theorem C64_record (r : RelInfo) (h : RecordFits r) :
    (relWords .little (r.bytes .little)).map (relInfo .little) = [r] := by
  obtain ⟨h1, h2, h3, h4⟩ := h
  have := relWords_bytes .little [r] (by simpa using h1)
  simp only [List.flatMap_cons, List.flatMap_nil, List.append_nil, List.map_cons, List.map_nil] at this
  rw [this, List.map_cons, List.map_nil, relInfo_words r h3 h4, Nat.mod_eq_of_lt h2]

/-- **C64 (defect).** The same is false for big-endian records: the symbol number is shifted the wrong
way, so that what is read back is the number divided by 65536. -/
theorem C64_record_big (r : RelInfo) (h : RecordFits r) :
    ((relWords .big (r.bytes .big)).map (relInfo .big)).map (·.symbolnum) = [r.symbolnum / 65536] ∧
      (r.symbolnum ≠ 0 → (relWords .big (r.bytes .big)).map (relInfo .big) ≠ [r]) := by
  obtain ⟨h1, h2, h3, h4⟩ := h
  have := relWords_bytes .big [r] (by simpa using h1)
  simp only [List.flatMap_cons, List.flatMap_nil, List.append_nil, List.map_cons, List.map_nil] at this
  rw [this]
  have hb := relInfo_big r h2 h3 h4
  refine ⟨by simp [hb], ?_⟩
  intro hne hc
  have := congrArg (List.map (·.symbolnum)) hc
  simp only [List.map_cons, List.map_nil, hb, List.cons.injEq, and_true] at this
  have : r.symbolnum / 65536 < r.symbolnum := Nat.div_lt_self (Nat.pos_of_ne_zero hne) (by decide)
  omega

/-- **C64.** The relocations of a section that are written to a little-endian file are read back, one for
one and in the order in which they are written, with their flags, targets, subtractors and addends. -/
theorem C64_round_trip (a : Arch) (cpu : Nat) (hc : machoCpu a = .ok cpu) (symIdx secIdx : Nat → Nat)
    (symbols : List Symbol) (rs : List Reloc)
    (hst : ∀ r ∈ rs, ∀ typ pcrel len, r.flags = .macho typ pcrel len → Storable a symIdx secIdx r typ len)
    (recs : List RelInfo) (h : machoRecordsAll a symIdx secIdx symbols (machoOrder rs) = .ok recs) :
    All2 (ReadsAs cpu symIdx secIdx symbols) (machoOrder rs)
      (machoAll .little cpu (relWords .little (recs.flatMap (RelInfo.bytes .little)))) := by
  have hm : ∀ r ∈ machoOrder rs, r ∈ rs := by
    intro r hr
    unfold machoOrder at hr
    split at hr
    · split at hr
      · exact List.mem_reverse.1 hr
      · exact hr
    · exact hr
  obtain ⟨h1, h2, _⟩ := recordsAll_step a cpu hc symIdx secIdx symbols (machoOrder rs)
    (fun r hr => hst r (hm r hr)) recs h
  rw [relWords_bytes _ _ h2]
  exact h1

/-- **C64.** The relocations are written in the order they have in the section or in the reverse order; if
they were sorted by increasing offset, then they are written by decreasing offset. -/
theorem C64_order (rs : List Reloc) :
    (machoOrder rs = rs ∨ machoOrder rs = rs.reverse) ∧
      (rs.Pairwise (fun a b => a.offset ≤ b.offset) →
        (machoOrder rs).Pairwise (fun a b => b.offset ≤ a.offset)) := by
  unfold machoOrder
  split
  · rename_i a b ha hb
    split
    · refine ⟨.inr rfl, fun h => ?_⟩
      rw [List.pairwise_reverse]
      exact h
    · rename_i hlt
      refine ⟨.inl rfl, fun h => ?_⟩
      -- all offsets are equal
      have hall : ∀ x ∈ rs, x.offset = a.offset := by
        obtain ⟨tl, rfl⟩ : ∃ tl, rs = a :: tl := by
          cases rs with
          | nil => cases ha
          | cons y tl => cases ha; exact ⟨tl, rfl⟩
        rw [List.pairwise_cons] at h
        obtain ⟨h1, h2⟩ := h
        intro x hx
        rcases List.mem_cons.1 hx with rfl | hx
        · rfl
        · have hge := h1 x hx
          -- x ≤ last
          have hle : x.offset ≤ b.offset := by
            obtain ⟨ini, hini⟩ : ∃ ini, tl = ini ++ [b] := by
              rw [List.getLast?_cons_of_ne_nil (by intro hn; rw [hn] at hx; cases hx)] at hb
              exact List.getLast?_eq_some_iff.1 hb
            rw [hini] at hx h2
            rcases List.mem_append.1 hx with hx | hx
            · exact (List.pairwise_append.1 h2).2.2 x hx b (by simp)
            · simp only [List.mem_singleton] at hx; rw [hx]; exact Nat.le_refl _
          omega
      refine List.Pairwise.imp_of_mem (R := fun _ _ => True) ?_ (List.pairwise_of_forall (by simp))
      intro x y hx hy _
      rw [hall x hx, hall y hy]; exact Nat.le_refl _
  · rename_i hn
    refine ⟨.inl rfl, fun _ => ?_⟩
    cases rs with
    | nil => exact .nil
    | cons y tl =>
      exfalso
      refine hn y ((y :: tl).getLast (by simp)) rfl ?_
      exact List.getLast?_eq_some_getLast (by simp)

/-- **C64.** The number of records is the number reserved for them in the layout of the file. -/
theorem C64_count (a : Arch) (cpu : Nat) (hc : machoCpu a = .ok cpu) (symIdx secIdx : Nat → Nat)
    (symbols : List Symbol) (rs : List Reloc)
    (hst : ∀ r ∈ rs, ∀ typ pcrel len, r.flags = .macho typ pcrel len → Storable a symIdx secIdx r typ len)
    (recs : List RelInfo) (h : machoRecordsAll a symIdx secIdx symbols (machoOrder rs) = .ok recs) :
    recs.length = machoCount rs ∧ (recs.flatMap (RelInfo.bytes .little)).length = 8 * machoCount rs := by
  have hm : ∀ r ∈ machoOrder rs, r ∈ rs := by
    intro r hr
    rcases (C64_order rs).1 with h | h <;> rw [h] at hr
    · exact hr
    · exact List.mem_reverse.1 hr
  obtain ⟨_, _, h3⟩ := recordsAll_step a cpu hc symIdx secIdx symbols (machoOrder rs)
    (fun r hr => hst r (hm r hr)) recs h
  have hcount : machoCount (machoOrder rs) = machoCount rs := by
    rcases (C64_order rs).1 with h | h <;> rw [h]
    unfold machoCount
    rw [List.map_reverse, List.sum_reverse]
  rw [hcount] at h3
  refine ⟨h3, ?_⟩
  rw [← h3, List.length_flatMap]
  have : recs.map (fun r => (RelInfo.bytes .little r).length) = recs.map (fun _ => 8) := by
    apply List.map_congr_left
    intro r _
    simp [RelInfo.bytes]
  rw [this]
  generalize recs = l
  induction l with
  | nil => rfl
  | cons x l ih => simp only [List.map_cons, List.sum_cons, ih, List.length_cons]; omega

/-- **C64.** Writing the relocations fails exactly for what the format cannot express: a subtractor on an
architecture other than x86-64 and ARM64, an explicit addend on an architecture other than ARM64, or flags
of another format. -/
theorem C64_succeeds (a : Arch) (symIdx secIdx : Nat → Nat) (symbols : List Symbol) (rs : List Reloc)
    (hsym : ∀ r ∈ rs, ∃ y, symbols[r.symbol]? = some y ∧ (y.kind = .sectionSym → y.section_.id? ≠ none)) :
    (∃ recs, machoRecordsAll a symIdx secIdx symbols rs = .ok recs) ↔
      ∀ r ∈ rs, (∃ typ pcrel len, r.flags = .macho typ pcrel len) ∧
        (r.subtractor ≠ none → Arm64 a ∨ a = .x86_64) ∧ (r.addend ≠ 0 → Arm64 a) := by
  have one : ∀ r ∈ rs, (∃ recs, machoRecords a symIdx secIdx symbols r = .ok recs) ↔
      ((∃ typ pcrel len, r.flags = .macho typ pcrel len) ∧
        (r.subtractor ≠ none → Arm64 a ∨ a = .x86_64) ∧ (r.addend ≠ 0 → Arm64 a)) := by
    intro r hr
    obtain ⟨y, hy, hs⟩ := hsym r hr
    have hmain : ∀ typ pcrel len, ∃ l, mainRecord symIdx secIdx symbols r typ pcrel len = .ok l := by
      intro typ pcrel len
      unfold mainRecord
      rw [hy]
      simp only
      split
      · rename_i hk
        split
        · rename_i hn; exact absurd hn (hs hk)
        · exact ⟨_, rfl⟩
      · exact ⟨_, rfl⟩
    have hsub : ∀ len, (∃ l, subRecord a symIdx r len = .ok l) ↔ (r.subtractor ≠ none → Arm64 a ∨ a = .x86_64) := by
      intro len
      unfold subRecord Arm64
      simp only
      cases r.subtractor with
      | none => simp
      | some s =>
        simp only
        split
        · rename_i h; exact ⟨fun _ _ => .inl h, fun _ => ⟨_, rfl⟩⟩
        · rename_i h
          split
          · rename_i h'; exact ⟨fun _ _ => .inr h', fun _ => ⟨_, rfl⟩⟩
          · rename_i h'
            refine ⟨fun ⟨l, hl⟩ => by (cases hl), fun hh => ?_⟩
            rcases hh (by simp) with hh | hh
            · exact absurd hh h
            · exact absurd hh h'
    have hadd : ∀ len, (∃ l, addRecord a r len = .ok l) ↔ (r.addend ≠ 0 → Arm64 a) := by
      intro len
      unfold addRecord Arm64
      split
      · rename_i h; exact ⟨fun _ hn => absurd h hn, fun _ => ⟨_, rfl⟩⟩
      · rename_i h
        split
        · rename_i h'; exact ⟨fun _ _ => h', fun _ => ⟨_, rfl⟩⟩
        · rename_i h'
          exact ⟨fun ⟨l, hl⟩ => by (cases hl), fun hh => absurd (hh h) h'⟩
    unfold machoRecords
    split
    · rename_i typ pcrel len hf
      rw [← hsub len, ← hadd len]
      constructor
      · rintro ⟨l, h⟩
        obtain ⟨s, h1, h⟩ := Res.bind_eq_ok.1 h
        obtain ⟨d, h2, h⟩ := Res.bind_eq_ok.1 h
        exact ⟨⟨_, _, _, hf⟩, ⟨s, h1⟩, ⟨d, h2⟩⟩
      · rintro ⟨_, ⟨s, h1⟩, ⟨d, h2⟩⟩
        obtain ⟨m, h3⟩ := hmain typ pcrel len
        exact ⟨s ++ d ++ m, by rw [h1, Res.ok_bind, h2, Res.ok_bind, h3, Res.ok_bind]⟩
    · rename_i hf
      refine ⟨fun ⟨l, hl⟩ => by (cases hl), fun ⟨⟨t, p, l, hh⟩, _⟩ => absurd hh (hf t p l)⟩
  clear hsym
  induction rs with
  | nil => simp [machoRecordsAll]
  | cons r rs ih =>
    have ih := ih (fun r hr => one r (List.mem_cons_of_mem _ hr))
    have h1 := one r (by simp)
    simp only [List.forall_mem_cons]
    refine Iff.trans ?_ (and_congr h1 ih)
    constructor
    · rintro ⟨l, h⟩
      unfold machoRecordsAll at h
      obtain ⟨s, h1, h⟩ := Res.bind_eq_ok.1 h
      obtain ⟨d, h2, h⟩ := Res.bind_eq_ok.1 h
      exact ⟨⟨s, h1⟩, ⟨d, h2⟩⟩
    · rintro ⟨⟨s, h1⟩, ⟨d, h2⟩⟩
      exact ⟨s ++ d, by unfold machoRecordsAll; rw [h1, Res.ok_bind, h2, Res.ok_bind]⟩

/-! ## Concrete cases -/

example : RecordFits ⟨4, 7, true, 2, true, 2⟩ := by unfold RecordFits; decide

example : (relWords .little (RelInfo.bytes .little ⟨4, 7, true, 2, true, 2⟩)).map (relInfo .little) =
    [⟨4, 7, true, 2, true, 2⟩] := by decide

/-- The defect: a big-endian relocation against symbol 7 is read as one against symbol 0. -/
example : (relWords .big (RelInfo.bytes .big ⟨4, 7, true, 2, true, 2⟩)).map (relInfo .big) =
    [⟨4, 0, true, 2, true, 2⟩] := by decide

private def sym0 : Symbol :=
  { name := [102], value := 0, size := 0, kind := .text, scope := .dynamic, weak := false,
    section_ := .undefined, flags := .none }

private def rel0 : Reloc := ⟨4, 0, none, -8, .macho 2 true 2⟩

example : machoRecordsAll .aarch64 (fun i => i) (fun i => i + 1) [sym0] (machoOrder [rel0]) =
    .ok [⟨4, 4294967288, false, 2, false, 10⟩, ⟨4, 0, true, 2, true, 2⟩] := by decide

example : machoCpu .aarch64 = .ok 0x0100000c ∧
    ∀ r ∈ [rel0], ∀ typ pcrel len, r.flags = .macho typ pcrel len →
      Storable .aarch64 (fun _ => 5) (fun _ => 1) r typ len := by
  refine ⟨rfl, ?_⟩
  intro r hr typ pcrel len hf
  simp only [List.mem_singleton] at hr
  subst hr
  cases hf
  exact ⟨by decide, by decide, by decide, by unfold Arm64; decide, by decide, by simp, by simp⟩

end Obj.Props
