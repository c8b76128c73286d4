import Verif.Proof.MachoBW10

/-! What the Mach-O builder has read can be written. -/

namespace Obj.MachoB
open Obj Obj.MachoR
open Obj.Spec.MachoF (Each num headerSize headerIn IsCommand segmentIn sectionsIn sectionAt Zerofill IndirectOf EntrySize)
open Obj.Spec.MachoB
open Obj.Spec.MachoI (PartIs)

theorem flatMap_congr2 {α β : Type} {f g : α → List β} : ∀ {l : List α}, (∀ a ∈ l, f a = g a) → l.flatMap f = l.flatMap g
  | [], _ => rfl
  | a :: l, h => by rw [List.flatMap_cons, List.flatMap_cons, h a (by simp), flatMap_congr2 fun b hb => h b (by simp [hb])]

theorem num4 (en : Endianness) (d : List UInt8) (o : Nat) : num en d o 4 < 2 ^ 32 := MachoF.num_lt en d o 4

theorem num_space (b : Builder) (d : List UInt8) (o : Nat) : num b.endian d o (Spec.MachoF.width b.is64) < space b := by
  have h := MachoF.num_lt b.endian d o (Spec.MachoF.width b.is64)
  unfold space
  revert h
  cases b.is64 <;> exact id

theorem len16 {d : List UInt8} {o : Nat} (h : o + 16 ≤ d.length) : (slice d o 16).length = 16 := by
  unfold slice
  rw [List.length_take, List.length_drop]; omega

theorem headers_ok {b : Builder} {k : List UInt8}
    (hsz : Spec.MachoF.segmentSize b.is64 + Spec.MachoF.sectionSize b.is64 * (segmentIn b.cfg k).nsects ≤ k.length) {h : Sect}
    (hh : h ∈ sectionsIn b.cfg k) : h.sectname.length = 16 ∧ h.segname.length = 16 ∧ h.addr < space b ∧ h.align < 2 ^ 32 ∧ h.flags < 2 ^ 32 ∧
      h.reserved2 < 2 ^ 32 ∧ h.nreloc < 2 ^ 32 := by
  unfold sectionsIn at hh
  obtain ⟨i, hi, rfl⟩ := List.mem_map.1 hh
  have hi := List.mem_range.1 hi
  have hle : Spec.MachoF.sectionSize b.is64 * i + Spec.MachoF.sectionSize b.is64 ≤ Spec.MachoF.sectionSize b.is64 * (segmentIn b.cfg k).nsects := by
    rw [← Nat.mul_succ]
    exact Nat.mul_le_mul_left _ hi
  have hs : 32 ≤ Spec.MachoF.sectionSize b.is64 := by unfold Spec.MachoF.sectionSize; split <;> omega
  unfold sectionAt
  refine ⟨len16 ?_, len16 ?_, num_space b _ _, num4 .., num4 .., num4 .., num4 ..⟩
  · simp only; omega
  · simp only; omega

theorem relIs_ok {t : Totals} {a v : Nat} (ha : a < 2 ^ 32) {r : Rel} (h : RelIs .little t a v r) :
    (r.address < 2 ^ 32 ∧ r.length < 4 ∧ r.typ < 16) ∧ ∀ i, r.target = .section_ i → i < t.sections := by
  obtain ⟨h1, -, h3, h4, -⟩ := id h
  exact ⟨⟨by omega, by simp only at h3; omega, by simp only at h4; omega⟩, (relIs_target h).2⟩

theorem data_size {data : List UInt8} {h : Sect} {off : Nat} {d : Data} (hd : DataIs data h off d) (hz : ¬ Zerofill h) : d.size = h.size := by
  rcases hd with ⟨hz', -⟩ | ⟨-, l, hp, rfl⟩
  · exact absurd hz' hz
  · rcases hp with ⟨h0, rfl⟩ | ⟨h1, rfl⟩
    · exact h0.symm
    · show (slice data off h.size).length = _
      unfold slice
      rw [List.length_take, List.length_drop]; omega

theorem section_sound {b : Builder} {data k : List UInt8} {t : Totals} (hc : segCfg b.endian k = b.cfg)
    (hsz : Spec.MachoF.segmentSize b.is64 + Spec.MachoF.sectionSize b.is64 * (segmentIn b.cfg k).nsects ≤ k.length) {h : Sect}
    (hh : h ∈ sectionsIn b.cfg k) {off : Nat} {s : Sec} (hs : SectionIs b.cfg data t h off s) (hen : s.relocs ≠ [] → b.endian = .little)
    (hsec : ∀ i, i < t.sections → ∃ t, b.sections[i]? = some t ∧ t.delete = false) (hsym : ∀ i, i < t.symbols → ∃ y, b.symbols[i]? = some y ∧ y.delete = false)
    (hind : ∀ v ∈ t.indirect, v < 2 ^ 32) : SecOk b s := by
  obtain ⟨f1, f2, f3, f4, f5, f6, f7⟩ := headers_ok hsz hh
  have hrel : ∀ r ∈ s.relocs, (r.address < 2 ^ 32 ∧ r.length < 4 ∧ r.typ < 16) ∧ ∀ i, r.target = .section_ i → i < t.sections := by
    intro r hr
    have he := hen (List.ne_nil_of_mem hr)
    obtain ⟨i, -, hi⟩ := BuildR.each_mem hs.relocs.2 hr
    rw [show (b.cfg).en = Endianness.little from he] at hi
    exact relIs_ok (num4 ..) hi
  obtain ⟨vs, hv, hvs⟩ := hs.indirect
  have hvl := BuildR.each_length hvs
  have hvt : ∀ v ∈ vs, v < 2 ^ 32 := by
    intro v hm
    cases hv with
    | part _ e _ _ => exact hind v (by rw [e]; simp [hm])
    | other _ => cases hm
  have hi : ∀ x ∈ s.indirect, ∃ v, v < 2 ^ 32 ∧ IndIs t v x := by
    intro x hx
    obtain ⟨v, hv, hx⟩ := BuildR.each_mem hvs hx
    exact ⟨v, hvt v hv, hx⟩
  refine ⟨hs.sectname ▸ f1, hs.segname ▸ f2, hs.addr ▸ f3, hs.align ▸ f4, hs.flags ▸ f5, ?_, ?_, hen, fun r hr => (hrel r hr).1,
    fun r hr i e => hsec i ((hrel r hr).2 i e), ?_, ?_, ?_⟩
  · rw [hs.stubSize]; split
    · exact f6
    · omega
  · rw [hs.flags]
    rcases hs.contents with ⟨hz, e⟩ | ⟨hz, l, -, e⟩ <;> rw [e]
    · exact ⟨hz, Nat.mod_lt _ (by omega)⟩
    · exact hz
  · unfold IndirectCount
    rw [hs.flags]
    cases hv with
    | part he _ _ hl =>
      rw [hl] at hvl
      cases he with
      | pointers hf =>
        rw [if_pos hf, hvl, data_size hs.contents]
        · rfl
        · intro hz
          unfold Zerofill at hz
          simp at hf hz
          omega
      | stubs hf h0 =>
        rw [if_neg (by rw [hf]; decide), if_pos hf, hs.stubSize, if_pos hf, data_size hs.contents]
        · exact ⟨h0, hvl⟩
        · intro hz
          unfold Zerofill at hz
          rw [hf] at hz
          exact absurd hz (by decide)
    | other hn =>
      rw [if_neg (by simp at hn ⊢; omega), if_neg (by simp at hn; omega)]
      exact List.length_eq_zero_iff.1 (by rw [hvl]; rfl)
  · intro v hm
    obtain ⟨w, hw, hx⟩ := hi _ hm
    unfold IndIs at hx
    split at hx
    · next hb => cases hx; exact ⟨hw, hb⟩
    · cases hx.2
  · intro i hm
    obtain ⟨w, hw, hx⟩ := hi _ hm
    unfold IndIs at hx
    split at hx
    · cases hx
    · obtain ⟨h1, h2⟩ := hx
      cases h2
      exact hsym _ h1

theorem library_sound {en : Endianness} {k : List UInt8} {d : Dylib} {cmds : List Nat} (h : LibraryIs en k d) (hn : number en k ∈ cmds) : LibOk cmds d := by
  obtain ⟨_, _, -, -, hz⟩ := h.name
  exact ⟨h.delete, by rw [h.cmd]; exact hn, hz, h.timestamp ▸ num4 .., h.current ▸ num4 .., h.compat ▸ num4 ..⟩

theorem command_sound {en : Endianness} {data k : List UInt8} {c : Cmd} (hk : IsCommand en k) (h : CommandIs en data k c) : CmdOk c := by
  cases h with
  | idDylib h1 h2 => exact library_sound h2 (by simp [h1])
  | buildVersion h1 h2 =>
    refine ⟨num4 .., num4 .., num4 .., fun t ht => ?_⟩
    obtain ⟨i, -, rfl⟩ := List.mem_map.1 ht
    exact ⟨num4 .., num4 ..⟩
  | linkedit h1 h2 h3 => exact h1
  | other h1 h2 =>
    refine ⟨_, h1, ?_⟩
    rw [List.length_drop]
    have := hk.1
    omega
  | _ => trivial

theorem command_dys {en : Endianness} {data k : List UInt8} {c : Cmd} (h : CommandIs en data k c) : isDysymtab en k = decide (c = .dysymtab) := by
  have hk := command_kind h
  rw [Bool.eq_iff_iff]
  constructor
  · intro e
    rw [isDysymtab_of.1 e] at hk
    cases c <;> simp [kindOf, cmdKind] at hk ⊢
  · intro e
    have e := of_decide_eq_true e
    subst e
    cases h with
    | dysymtab h1 _ => exact h1

/-- What was read can be written. -/
theorem sound_of_reads {is64 : Bool} {data : List UInt8} {b : Builder} (hr : Reads is64 data b)
    (hcls : ∀ cmds, CommandsAll ⟨is64, b.endian⟩ (headerIn b.endian data) data cmds → ∀ k ∈ cmds, number b.endian k ≠ if is64 then 1 else 0x19)
    (hsy : (b.commands.filter fun k => k = .symtab).length ≤ 1) (hen : ∀ s ∈ b.sections, s.relocs ≠ [] → b.endian = .little) : Sound b := by
  obtain ⟨cmds, t, hall, htot, hpage, q1, q2, q3, ⟨gs, q4, q4a, q4b⟩, ⟨yss, q5, q5a⟩, q6, hny⟩ := hr.body
  have hw := hr.width
  have hcfg : ∀ k ∈ cmds, isSegment b.endian k → segCfg b.endian k = b.cfg := by
    intro k hk hs
    have := hcls cmds hall k hk
    unfold isSegment at hs
    have hs := of_decide_eq_true hs
    unfold segCfg Builder.cfg
    rw [hw]
    cases is64 <;> simp_all
  have hnsec : b.sections.length = t.sections := by
    have h1 := sections_count q4
    rw [← q4b, ← htot.sections] at h1
    exact h1
  have hseg : ∀ p ∈ gs, ∃ k, segCfg b.endian k = b.cfg ∧ SegmentIs b.endian data t k p := by
    intro p hp
    obtain ⟨k, hk, h⟩ := BuildR.each_mem q4 hp
    obtain ⟨h1, h2⟩ := List.mem_filter.1 hk
    exact ⟨k, hcfg k h1 h2, h⟩
  have hsecs : ∀ s ∈ b.sections, ∃ k h off, segCfg b.endian k = b.cfg ∧
      Spec.MachoF.segmentSize b.is64 + Spec.MachoF.sectionSize b.is64 * (segmentIn b.cfg k).nsects ≤ k.length ∧ h ∈ sectionsIn b.cfg k ∧
      SectionIs b.cfg data t h off s := by
    intro s hs
    rw [q4b] at hs
    obtain ⟨p, hp, hs⟩ := List.mem_flatMap.1 hs
    obtain ⟨k, hk, h⟩ := hseg p hp
    obtain ⟨offs, h1, h2⟩ := h.sections
    have hsz := h.size
    rw [hk] at h1 h2 hsz
    obtain ⟨⟨x, o⟩, hx, h3⟩ := BuildR.each_mem h2 hs
    exact ⟨k, x, o, hk, hsz, (List.of_mem_zip hx).1, h3⟩
  have hsyms : ∀ y ∈ b.symbols, ∃ k tab o, SymbolIs data t tab (Spec.MachoF.symbolAt b.cfg k o) y := by
    intro y hy
    rw [q5a] at hy
    obtain ⟨ys, hys, hy⟩ := List.mem_flatten.1 hy
    obtain ⟨k, _, tab, h1, h2⟩ := BuildR.each_mem q5 hys
    obtain ⟨n, hm, hn⟩ := BuildR.each_mem h2 hy
    rw [h1.2.2.1, ← hw] at hm
    obtain ⟨i, -, rfl⟩ := List.mem_map.1 hm
    exact ⟨_, _, _, hn⟩
  have hdy : ∀ (i : Nat), i < t.symbols → ∃ y, b.symbols[i]? = some y ∧ y.delete = false := by
    intro i hi
    rw [← hny] at hi
    refine ⟨_, List.getElem?_eq_getElem hi, ?_⟩
    obtain ⟨_, _, _, h⟩ := hsyms _ (List.getElem_mem hi)
    exact h.delete
  have hds : ∀ (i : Nat), i < t.sections → ∃ s, b.sections[i]? = some s ∧ s.delete = false := by
    intro i hi
    rw [← hnsec] at hi
    refine ⟨_, List.getElem?_eq_getElem hi, ?_⟩
    obtain ⟨_, _, _, _, _, _, h⟩ := hsecs _ (List.getElem_mem hi)
    exact h.delete
  obtain ⟨tables, t1, t2⟩ := htot.indirect
  have htab : ∀ v ∈ t.indirect, v < 2 ^ 32 := by
    intro v hv
    rw [t2] at hv
    cases hl : tables.getLast? with
    | none => rw [hl] at hv; cases hv
    | some tb =>
      rw [hl] at hv
      obtain ⟨k, -, -, -, e⟩ := BuildR.each_mem t1 (List.mem_of_getLast? hl)
      change v ∈ tb at hv
      rw [e] at hv
      obtain ⟨i, -, rfl⟩ := List.mem_map.1 hv
      exact num4 ..
  have hids : sectionOrder b = b.sections.map (·.id) := by
    unfold sectionOrder
    rw [q2, q4b, List.map_flatMap]
    have h1 : Each (fun i g => b.segments[i]? = some g) (List.range b.segments.length) b.segments := by
      refine BuildW.each_of_forall (by rw [List.length_range]) fun i j g hj hg => ?_
      obtain ⟨hi, e⟩ := List.getElem?_eq_some_iff.1 hj
      rw [List.getElem_range] at e
      rw [← e]; exact hg
    rw [← BuildW.each_flatMap_eq _ (fun g : Segm => g.sections) h1 fun i _ g hg => by rw [hg], q4a, List.flatMap_map]
    refine flatMap_congr2 fun p hp => ?_
    obtain ⟨k, -, h⟩ := hseg p hp
    exact h.ids
  refine ⟨?_, ?_, ?_, ?_, hr.numbered, ?_, ?_, ?_, ?_, ?_, ?_, ?_, hsy, ?_⟩
  · rw [hr.cputype]; exact num4 ..
  · rw [hr.cpusubtype]; exact num4 ..
  · rw [hr.filetype]; exact num4 ..
  · rw [hr.flags]; exact num4 ..
  · rw [q2, List.length_range]
  · rw [hids, List.Nodup, List.pairwise_iff_getElem]
    intro i j hi hj hij
    rw [List.getElem_map, List.getElem_map]
    rw [List.length_map] at hi hj
    rw [hr.numbered.sections i _ (List.getElem?_eq_getElem hi), hr.numbered.sections j _ (List.getElem?_eq_getElem hj)]
    omega
  · intro g hg _
    rw [q4a] at hg
    obtain ⟨p, hp, rfl⟩ := List.mem_map.1 hg
    obtain ⟨k, hk, h⟩ := hseg p hp
    have hsz := h.size
    have e1 := h.vmaddr
    have e2 := h.vmsize
    have e3 := h.maxprot
    have e4 := h.initprot
    have e5 := h.flags
    rw [hk] at hsz e1 e2 e3 e4 e5
    refine ⟨?_, e1 ▸ num_space b .., e2 ▸ num_space b .., e3 ▸ num4 .., e4 ▸ num4 .., e5 ▸ num4 ..⟩
    rw [h.segname]
    refine len16 ?_
    unfold Spec.MachoF.segmentSize at hsz
    split at hsz <;> omega
  · intro s hs _
    obtain ⟨k, h, off, h1, h2, h3, h4⟩ := hsecs s hs
    exact section_sound h1 h2 h3 h4 (hen s hs) hds hdy htab
  · intro y hy _
    obtain ⟨k, tab, o, h⟩ := hsyms y hy
    have e := h.sect
    refine ⟨h.ntype ▸ MachoF.num_lt _ _ _ 1, h.nsect ▸ MachoF.num_lt _ _ _ 1, h.desc ▸ MachoF.num_lt _ _ _ 2, h.value ▸ num_space b .., ?_⟩
    rw [h.ntype]
    split at e
    · next h7 => rw [e.2.2]; simp [h7]
    · next h7 => rw [e]; simp [h7]
  · intro i d hi hd
    obtain ⟨k, hk, h⟩ := BuildR.each_mem q6 (List.mem_of_getElem? hd)
    have := (List.mem_filter.1 hk).2
    exact library_sound h (of_decide_eq_true this)
  · intro c hc
    obtain ⟨k, hk, h⟩ := BuildR.each_mem q1 hc
    exact command_sound (hall.2.1 k hk) h
  · intro s hs _ hi
    obtain ⟨k, h, off, h1, h2, h3, h4⟩ := hsecs s hs
    obtain ⟨vs, hv, hvs⟩ := h4.indirect
    have hne : t.indirect ≠ [] := by
      intro he
      apply hi
      apply List.length_eq_zero_iff.1
      rw [BuildR.each_length hvs]
      cases hv with
      | part _ e _ _ =>
        rw [he] at e
        have := congrArg List.length e
        rw [List.length_append, List.length_append, List.length_nil] at this
        omega
      | other _ => rfl
    rw [t2] at hne
    have hf := each_filter (p := isDysymtab b.endian) (q := fun k => decide (k = Cmd.dysymtab)) q1 fun _ _ => command_dys
    rcases Classical.em (Cmd.dysymtab ∈ b.commands) with hm | hm
    · exact hm
    · have : (b.commands.filter fun k => decide (k = Cmd.dysymtab)) = [] := by
        rw [List.filter_eq_nil_iff]
        intro k hk e
        rw [of_decide_eq_true e] at hk
        exact hm hk
      rw [this] at hf
      have h0 := BuildR.each_length hf
      have h1 := BuildR.each_length t1
      rw [List.length_nil] at h0
      have : tables = [] := List.length_eq_zero_iff.1 (by omega)
      rw [this] at hne
      exact absurd rfl hne

theorem commandsAll_unique {c : Cfg} {h : Mhdr} {data : List UInt8} {xs ys : List (List UInt8)} (hx : CommandsAll c h data xs) (hy : CommandsAll c h data ys) :
    xs = ys := by
  obtain ⟨-, h1, -⟩ := (commandsAll_iff ..).1 hx
  obtain ⟨-, h2, -⟩ := (commandsAll_iff ..).1 hy
  exact MachoF.commandsIn_unique h1 h2

end Obj.MachoB
