import Verif.Proof.MachoW7

/-! # C71: an object written as Mach-O is read back -/

namespace Obj.Props
open Obj Obj.W Obj.Spec Obj.Spec.MachoO Obj.MachoW Obj.MachoR

/-- Writing a well-formed object never panics, whatever its sections, symbols and relocations. -/
theorem C71_no_panic (o : Object) (hv : Valid o) (x : Extra) : machoWrite o x ≠ .panic := (machoWrite_sat o x hv).no_panic

/-- An error has one of the reasons of the specification. -/
theorem C71_refused (o : Object) (hv : Valid o) (x : Extra) (h : machoWrite o x = .err) : Refused o x := (machoWrite_sat o x hv).err h

/-- Nothing that Mach-O cannot express is written: an object that is written has an architecture with a CPU type, at
most 255 sections with Mach-O flags and names of at most 16 bytes, relocations with Mach-O records, and a Mach-O type
for every symbol; and the file is smaller than 4 GiB. -/
theorem C71_accepted (o : Object) (hv : Valid o) (x : Extra) (out : List UInt8) (h : machoWrite o x = .ok out) :
    (∃ p, ((o.arch, x.sub), p) ∈ cpuTable) ∧ o.sections.length ≤ 255 ∧ out.length < 2 ^ 32 ∧
    (∀ s ∈ o.sections, sectionFlags s ≠ none ∧ s.name.length ≤ 16 ∧ s.segment.length ≤ 16) ∧
    (∀ s ∈ o.sections, ∀ r ∈ s.relocs, Expressible o r) ∧
    (∀ s ∈ o.symbols, Emitted o s → symbolFlags s ≠ none) := by
  obtain ⟨is64, t, data, cpu, sub, hs, ys, -, im⟩ := (machoWrite_sat o x hv).ok h
  refine ⟨⟨_, im.table⟩, im.planned.sections, ?_, ?_, ?_, ?_⟩
  · rw [im.len]; exact im.planned.len
  · intro s hs
    obtain ⟨i, hi⟩ := List.getElem?_of_mem hs
    obtain ⟨hd, -, H⟩ := heads hv im hi
    exact ⟨by rw [H.flags.1]; simp, H.nameLen⟩
  · intro s hs r hr
    have hsym : ∀ r ∈ machoOrder s.relocs, ∃ y, o.symbols[r.symbol]? = some y ∧ (y.kind = .sectionSym → y.section_.id? ≠ none) := by
      intro r hr
      obtain ⟨y, h1, h2⟩ := hv.relocSymbol s hs r (mem_machoOrder.1 hr)
      refine ⟨y, h1, fun hk => ?_⟩
      obtain ⟨i, hi⟩ := h2 hk
      rw [hi]; simp [W.SymSection.id?]
    exact (C64_succeeds o.arch (indexIn (orderOf o)) (sectionNumber o) o.symbols (machoOrder s.relocs) hsym).1 ⟨_, im.recs.all s hs⟩ r
      (mem_machoOrder.2 hr)
  · intro s hs he
    obtain ⟨i, hi⟩ := List.getElem?_of_mem hs
    obtain ⟨k, hk⟩ := List.getElem?_of_mem (((order_ok o).members i).2 ⟨s, hi, he⟩)
    obtain ⟨y, -, hy⟩ := im.syms k i s hk hi
    rw [hy.flags]; simp

private theorem bind_ok {α β : Type} {r : Res α} {f : α → Res β} {y : β} (h : r.bind f = .ok y) : ∃ x, r = .ok x ∧ f x = .ok y := by
  cases r with
  | ok x => exact ⟨x, rfl, h⟩
  | err => cases h
  | panic => cases h

private theorem partition_label (arch : Arch) : ∀ (ss : List Symbol) (i : Nat) (t : StrTab) (r : Groups × StrTab),
    MachoW.partition arch i t ss = .ok r → ∀ s ∈ ss, s.kind ≠ .label
  | [], _, _, _, _ => by simp
  | s :: ss, i, t, r, h => by
    unfold MachoW.partition at h
    obtain ⟨e, he, h⟩ := bind_ok h
    have hs : s.kind ≠ .label := by
      intro hk
      rw [hk] at he
      cases he
    have hrest : ∀ s ∈ ss, s.kind ≠ .label := by
      cases e with
      | true =>
        simp only [if_true, Res.bind_eq] at h
        obtain ⟨x, -, h⟩ := bind_ok h
        obtain ⟨y, hy, -⟩ := bind_ok h
        exact partition_label arch ss _ _ _ hy
      | false =>
        simp only [Bool.false_eq_true, if_false, Res.bind_eq] at h
        obtain ⟨y, hy, -⟩ := bind_ok h
        exact partition_label arch ss _ _ _ hy
    intro z hz
    rcases List.mem_cons.1 hz with rfl | hz
    · exact hs
    · exact hrest z hz

/-- An object with a label, which has no Mach-O symbol, is not written (rather than losing the label). -/
theorem C71_label (o : Object) (x : Extra) (out : List UInt8) (h : machoWrite o x = .ok out) : ∀ s ∈ o.symbols, s.kind ≠ .label := by
  unfold machoWrite at h
  cases hc : elfIs64 o.arch with
  | none => rw [hc] at h; cases h
  | some is64 =>
    rw [hc] at h
    simp only [Res.bind_eq] at h
    obtain ⟨p, hp, -⟩ := bind_ok h
    unfold plan at hp
    simp only at hp
    split at hp
    · cases hp
    simp only [Res.bind_eq] at hp
    obtain ⟨_, -, hp⟩ := bind_ok hp
    obtain ⟨_, -, hp⟩ := bind_ok hp
    obtain ⟨y, hy, -⟩ := bind_ok hp
    unfold planSymbols at hy
    simp only [Res.bind_eq] at hy
    obtain ⟨g, hg, -⟩ := bind_ok hy
    exact partition_label _ _ _ _ _ hg

/-- The file that is written reads back as the object: see `ReadsBack`. -/
theorem C71_round_trip (o : Object) (hv : Valid o) (x : Extra) (hf : MachoO.Fits o x) (out : List UInt8)
    (h : machoWrite o x = .ok out) : ∃ order f seg, ReadsBack o x out order f seg := by
  obtain ⟨is64, t, data, cpu, sub, hs, ys, h64, im⟩ := (machoWrite_sat o x hv).ok h
  exact ⟨_, _, _, readsBack hv hf im rfl h64⟩

/-- The order of the symbol table is determined by the object. -/
theorem C71_order_unique (o : Object) (a b : List Nat) (ha : Order o a) (hb : Order o b) : a = b := by
  have irr : ∀ i s, ¬ Before i s i s := before_irrefl
  have tr : ∀ i j s t, o.symbols[i]? = some s → o.symbols[j]? = some t → Before i s j t → ¬ Before j t i s := by
    intro i j s t _ _ h1 h2
    unfold Before at h1 h2
    rcases h1 with h1 | ⟨h1, h1'⟩
    · rcases h2 with h2 | ⟨h2, -⟩ <;> omega
    · rcases h2 with h2 | ⟨-, h2'⟩
      · omega
      · rw [h1] at h1'
        split at h1'
        · rename_i h0
          rw [if_pos h0] at h2'; omega
        · rename_i h0
          rw [if_neg h0] at h2'
          rcases h1' with h1' | ⟨h1', h1''⟩
          · rcases h2' with h2' | ⟨h2', -⟩
            · exact absurd h2' (List.lt_asymm h1')
            · rw [h2'] at h1'; exact absurd h1' (List.lt_irrefl _)
          · rcases h2' with h2' | ⟨-, h2'⟩
            · rw [h1'] at h2'; exact absurd h2' (List.lt_irrefl _)
            · omega
  have key : ∀ (a b : List Nat), (∀ i, i ∈ a ↔ i ∈ b) →
      a.Pairwise (fun i j => ∃ s t, o.symbols[i]? = some s ∧ o.symbols[j]? = some t ∧ Before i s j t) →
      b.Pairwise (fun i j => ∃ s t, o.symbols[i]? = some s ∧ o.symbols[j]? = some t ∧ Before i s j t) → a = b := by
    intro a
    induction a with
    | nil =>
      intro b hm _ _
      cases b with
      | nil => rfl
      | cons y b => exact absurd ((hm y).2 (by simp)) (by simp)
    | cons x a ih =>
      intro b hm ha hb
      cases b with
      | nil => exact absurd ((hm x).1 (by simp)) (by simp)
      | cons y b =>
        rw [List.pairwise_cons] at ha hb
        have hxy : x = y := by
          by_cases hne : x = y
          · exact hne
          exfalso
          have h1 : x ∈ b := by have := (hm x).1 (by simp); simpa [hne] using this
          have h2 : y ∈ a := by have := (hm y).2 (by simp); simpa [Ne.symm hne] using this
          obtain ⟨s, t, s1, t1, e1⟩ := ha.1 y h2
          obtain ⟨t', s', t2, s2, e2⟩ := hb.1 x h1
          rw [s1] at s2; rw [t1] at t2
          simp only [Option.some.injEq] at s2 t2
          subst s2; subst t2
          exact tr _ _ _ _ s1 t1 e1 e2
        subst hxy
        have nd : ∀ l : List Nat, (∀ j ∈ l, ∃ s t, o.symbols[x]? = some s ∧ o.symbols[j]? = some t ∧ Before x s j t) → x ∉ l := by
          intro l hl hx
          obtain ⟨s, t, s1, t1, e1⟩ := hl x hx
          rw [s1] at t1
          simp only [Option.some.injEq] at t1
          subst t1
          exact irr _ _ e1
        have n1 := nd a ha.1
        have n2 := nd b hb.1
        rw [ih b (fun i => ?_) ha.2 hb.2]
        have := hm i
        simp only [List.mem_cons] at this
        constructor
        · intro hi
          rcases this.1 (.inr hi) with rfl | h
          · exact absurd hi n1
          · exact h
        · intro hi
          rcases this.2 (.inr hi) with rfl | h
          · exact absurd hi n2
          · exact h
  exact key a b (fun i => by rw [ha.members, hb.members]) ha.sorted hb.sorted

/-! A concrete object: a function with relocations against an undefined symbol and a section, a subtractor and an
explicit addend; zero-filled data; local, external, undefined and common symbols. -/

/-- (concrete object) -/
def machoExample : Object :=
  { Object.new .macho .aarch64 .little with
    sections := [⟨"__TEXT".toUTF8.toList, "__text".toUTF8.toList, .text, 5, 4, [232, 0, 0, 0, 0],
        [⟨0, 2, none, 8, .macho 2 true 2⟩, ⟨1, 0, some 1, 0, .macho 0 false 2⟩], some 3, .none⟩,
      ⟨"__DATA".toUTF8.toList, "__bss".toUTF8.toList, .uninitializedData, 100, 16, [], [], none, .none⟩,
      ⟨"__DATA".toUTF8.toList, "__data".toUTF8.toList, .data, 3, 8, [1, 2, 3], [], none, .none⟩]
    symbols := [⟨"_g".toUTF8.toList, 0, 5, .text, .dynamic, false, .inSec 0, .none⟩,
      ⟨"_f".toUTF8.toList, 1, 0, .text, .linkage, true, .inSec 0, .none⟩,
      ⟨"_undef".toUTF8.toList, 0, 0, .unknown, .unknown, false, .undefined, .none⟩,
      ⟨"ltmp0".toUTF8.toList, 0, 0, .sectionSym, .compilation, false, .inSec 0, .none⟩,
      ⟨"_c".toUTF8.toList, 8, 64, .data, .linkage, false, .common, .none⟩,
      ⟨"file.c".toUTF8.toList, 0, 0, .file, .compilation, false, .none, .none⟩,
      ⟨"_x".toUTF8.toList, 4, 8, .data, .compilation, false, .inSec 1, .none⟩]
    subsectionsViaSymbols := true }

/-- (concrete file options) -/
def machoOptions : Extra := ⟨some .arm64E, none, some 1, some ⟨1, 0x0b0000, 0x0c0000⟩⟩

/-- (concrete object) -/
theorem machoExample_valid : Valid machoExample := by
  refine ⟨by decide, ?_, by decide, by decide, ?_, ?_, ?_, by decide +kernel, by decide, by decide, by decide, by decide, by decide⟩
  · intro s hs
    simp only [machoExample, List.mem_cons, List.not_mem_nil, or_false] at hs
    rcases hs with rfl | rfl | rfl
    · exact ⟨2, by decide, rfl⟩
    · exact ⟨4, by decide, rfl⟩
    · exact ⟨3, by decide, rfl⟩
  · intro s hs i hi
    simp only [machoExample, List.mem_cons, List.not_mem_nil, or_false] at hs
    rcases hs with rfl | rfl | rfl | rfl | rfl | rfl | rfl <;> simp at hi <;> subst hi <;> decide
  · intro s hs r hr
    simp only [machoExample, List.mem_cons, List.not_mem_nil, or_false] at hs
    rcases hs with rfl | rfl | rfl <;> simp at hr
    rcases hr with rfl | rfl
    · exact ⟨_, rfl, by simp⟩
    · exact ⟨_, rfl, by simp⟩
  · intro s hs r hr i hi
    simp only [machoExample, List.mem_cons, List.not_mem_nil, or_false] at hs
    rcases hs with rfl | rfl | rfl <;> simp at hr
    rcases hr with rfl | rfl <;> simp at hi
    subst hi; decide

/-- (concrete object) -/
theorem machoExample_fits : MachoO.Fits machoExample machoOptions := by
  refine ⟨by simp [machoOptions], by simp [machoOptions], by simp [machoOptions], ?_, ?_, by decide⟩
  · intro s hs f r h
    simp only [machoExample, List.mem_cons, List.not_mem_nil, or_false] at hs
    rcases hs with rfl | rfl | rfl <;> simp at h
  · intro s hs f r h
    simp only [machoExample, List.mem_cons, List.not_mem_nil, or_false] at hs
    rcases hs with rfl | rfl | rfl | rfl | rfl | rfl | rfl <;> simp at h

/-- (concrete object) -/
theorem machoExample_written : ∃ out, machoWrite machoExample machoOptions = .ok out := by
  cases hq : machoWrite machoExample machoOptions with
  | ok out => exact ⟨out, rfl⟩
  | panic => exact absurd hq (C71_no_panic _ machoExample_valid _)
  | err =>
    exfalso
    cases C71_refused _ machoExample_valid _ hq with
    | arch h => exact h (0x0100000c, 2) (by decide)
    | sections h => simp [machoExample] at h
    | memory h => cases h
    | file h =>
      have : room machoExample ≤ 2000 := by decide +kernel
      omega
    | label s h1 h2 =>
      simp only [machoExample, List.mem_cons, List.not_mem_nil, or_false] at h1
      rcases h1 with rfl | rfl | rfl | rfl | rfl | rfl | rfl <;> simp at h2
    | symbols h => simp [machoExample] at h
    | name s h1 h2 =>
      have : ∀ s ∈ machoExample.sections, s.name.length ≤ 16 ∧ s.segment.length ≤ 16 := by decide +kernel
      have := this s h1
      omega
    | section_ s h1 h2 =>
      simp only [machoExample, List.mem_cons, List.not_mem_nil, or_false] at h1
      rcases h1 with rfl | rfl | rfl <;> simp [sectionFlags, defaultSectionFlags] at h2
    | reloc s r h1 h2 h3 =>
      simp only [machoExample, List.mem_cons, List.not_mem_nil, or_false] at h1
      rcases h1 with rfl | rfl | rfl <;> simp at h2
      rcases h2 with rfl | rfl
      · exact h3 ⟨⟨_, _, _, rfl⟩, fun _ => .inl (.inl rfl), fun _ => .inl rfl⟩
      · exact h3 ⟨⟨_, _, _, rfl⟩, fun _ => .inl (.inl rfl), fun _ => .inl rfl⟩
    | symbol s h1 h2 h3 =>
      simp only [machoExample, List.mem_cons, List.not_mem_nil, or_false] at h1
      rcases h1 with rfl | rfl | rfl | rfl | rfl | rfl | rfl <;>
        first
        | exact absurd rfl h2.1
        | (simp [symbolFlags, defaultSymbolFlags, typeOf] at h3; done)

/-- The object is written and read back; the symbol table has the section symbol and `_x`, then `_f` and `_g`, then
`_c` and `_undef`. -/
example : ∃ out f seg, machoWrite machoExample machoOptions = .ok out ∧
    ReadsBack machoExample machoOptions out [3, 6, 1, 0, 4, 2] f seg ∧ f.header.cpusubtype = 2 := by
  obtain ⟨out, h⟩ := machoExample_written
  obtain ⟨order, f, seg, h2⟩ := C71_round_trip machoExample machoExample_valid machoOptions machoExample_fits out h
  have e : order = [3, 6, 1, 0, 4, 2] := by
    rw [C71_order_unique _ _ _ h2.ordered (order_ok machoExample)]
    decide +kernel
  subst e
  refine ⟨out, f, seg, h, h2, ?_⟩
  obtain ⟨sub, h3, h4⟩ := h2.cpu
  rw [h4]
  have : ∀ e ∈ cpuTable, e.1 = (Arch.aarch64, some CoffW.SubArch.arm64E) → e.2.2 = 2 := by decide
  exact this _ h3 rfl

/-- The relocations of the object satisfy the conditions under which they are read back. -/
example : ∀ s ∈ machoExample.sections, ∀ r ∈ s.relocs, RelocFits machoExample r := by
  intro s hs r hr
  simp only [machoExample, List.mem_cons, List.not_mem_nil, or_false] at hs
  rcases hs with rfl | rfl | rfl <;> simp at hr
  rcases hr with rfl | rfl
  · exact ⟨by decide, by decide, by intro t p l h; cases h; unfold MachoSpec.Arm64; decide⟩
  · exact ⟨by decide, by decide, by intro t p l h; cases h; unfold MachoSpec.Arm64; decide⟩

/-- RISC-V has no CPU type. -/
example : machoWrite { machoExample with arch := .riscv64 } machoOptions = .err := by
  have hv : Valid { machoExample with arch := .riscv64 } := by
    have h := machoExample_valid
    exact ⟨by decide, h.align, h.contents, h.bss, h.symbolSection, h.relocSymbol, h.relocSub, h.symbolName, h.memory, h.value, h.sections,
      h.symbols, h.relocs⟩
  cases hq : machoWrite { machoExample with arch := .riscv64 } machoOptions with
  | err => rfl
  | panic => exact absurd hq (C71_no_panic _ hv _)
  | ok out =>
    obtain ⟨p, hp⟩ := (C71_accepted _ hv _ out hq).1
    have : ∀ e ∈ cpuTable, e.1.1 ≠ Arch.riscv64 := by decide
    exact absurd rfl (this _ hp)

end Obj.Props
