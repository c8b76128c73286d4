import Verif.Proof.MachoImport2
import Verif.Props.ExportsTrie

/-! # The choice of the source of imports and exports, and the exports of Mach-O files -/

namespace Obj.MachoI
open Obj Obj.MachoR
open Obj.Spec.MachoI
open Obj.MachO (LoadCommands LoadCommandData)

/-! ## Choice of the source -/

/-- The value of the last element of a kind. -/
def lastOf {α : Type} (P : LoadCommandData → Prop) [DecidablePred P] (g : LoadCommandData → α) (a : Option α) (cmds : List LoadCommandData) : Option α :=
  cmds.foldl (fun a c => if P c then some (g c) else a) a

theorem lastOf_none {α : Type} (P : LoadCommandData → Prop) [DecidablePred P] (g : LoadCommandData → α) (a : Option α) (cmds : List LoadCommandData)
    (h : ∀ c ∈ cmds, ¬ P c) : lastOf P g a cmds = a := by
  unfold lastOf
  induction cmds generalizing a with
  | nil => rfl
  | cons c cs ih =>
    rw [List.foldl_cons, if_neg (h c (by simp))]
    exact ih a fun d hd => h d (by simp [hd])

theorem lastOf_last {α : Type} {P : LoadCommandData → Prop} [DecidablePred P] (g : LoadCommandData → α) (a : Option α) {cmds : List LoadCommandData}
    {c : LoadCommandData} (h : LastIs P cmds c) : lastOf P g a cmds = some (g c) := by
  obtain ⟨pre, post, rfl, h1, h2⟩ := h
  unfold lastOf
  rw [List.foldl_append, List.foldl_cons, if_pos h1]
  exact lastOf_none P g _ post h2

theorem last_or_none (P : LoadCommandData → Prop) [DecidablePred P] (cmds : List LoadCommandData) :
    (∀ c ∈ cmds, ¬ P c) ∨ ∃ c, LastIs P cmds c := by
  induction cmds with
  | nil => left; simp
  | cons c cs ih =>
    rcases ih with h | ⟨d, pre, post, rfl, h1, h2⟩
    · by_cases hc : P c
      · exact .inr ⟨c, [], cs, rfl, hc, h⟩
      · left
        intro d hd
        rcases List.mem_cons.1 hd with rfl | hd
        · exact hc
        · exact h d hd
    · exact .inr ⟨d, c :: pre, post, rfl, h1, h2⟩

theorem last_mem {P : LoadCommandData → Prop} {cmds : List LoadCommandData} {c : LoadCommandData} (h : LastIs P cmds c) : c ∈ cmds ∧ P c := by
  obtain ⟨pre, post, rfl, h1, -⟩ := h
  exact ⟨by simp, h1⟩

instance : DecidablePred IsFixups := fun c => inferInstanceAs (Decidable (c.cmd = 0x80000034))
instance : DecidablePred IsTrie := fun c => inferInstanceAs (Decidable (c.cmd = 0x80000033))
instance : DecidablePred IsDyldInfo := fun c => inferInstanceAs (Decidable (c.cmd = 0x22 ∨ c.cmd = 0x80000022))

/-- What `dyldInfoCmd` gives. -/
def infoOf (en : Endianness) (c : LoadCommandData) : DyldInfo :=
  ⟨field en c.data 16 4, field en c.data 20 4, field en c.data 24 4, field en c.data 28 4, field en c.data 32 4, field en c.data 36 4,
    field en c.data 40 4, field en c.data 44 4⟩

/-- What a `linkedit_data` command gives. -/
def linkOf (en : Endianness) (c : LoadCommandData) : Nat × Nat := (field en c.data 8 4, field en c.data 12 4)

private theorem info_eq (en : Endianness) (c : LoadCommandData) :
    dyldInfoCmd en c = if IsDyldInfo c then (if 48 ≤ c.data.length then .ok (some (infoOf en c)) else .err) else .ok none := by
  unfold dyldInfoCmd
  by_cases h : IsDyldInfo c
  · rw [if_pos h, if_pos (show c.cmd = 0x22 ∨ c.cmd = 0x80000022 from h), readAt_eq]
    by_cases hl : 48 ≤ c.data.length
    · rw [if_pos hl, if_pos (by omega), Res.ok_bind]
      simp only [infoOf]
      rw [field_take en _ 48 16 4 (by omega) hl, field_take en _ 48 20 4 (by omega) hl, field_take en _ 48 24 4 (by omega) hl,
        field_take en _ 48 28 4 (by omega) hl, field_take en _ 48 32 4 (by omega) hl, field_take en _ 48 36 4 (by omega) hl,
        field_take en _ 48 40 4 (by omega) hl, field_take en _ 48 44 4 (by omega) hl]
    · rw [if_neg hl, if_neg (by omega)]; rfl
  · rw [if_neg h, if_neg (show ¬ (c.cmd = 0x22 ∨ c.cmd = 0x80000022) from h)]

/-- The shape of both accessors of `linkedit_data` commands. -/
private theorem link_eq (en : Endianness) (c : LoadCommandData) (k : Nat) :
    (if c.cmd = k then (Bytes.readAt c.data 0 16).bind fun d => .ok (some (field en d 8 4, field en d 12 4)) else .ok none : Res (Option (Nat × Nat))) =
    if c.cmd = k then (if 16 ≤ c.data.length then .ok (some (linkOf en c)) else .err) else .ok none := by
  by_cases h : c.cmd = k
  · rw [if_pos h, if_pos h, readAt_eq]
    by_cases hl : 16 ≤ c.data.length
    · rw [if_pos hl, if_pos (by omega), Res.ok_bind]
      simp only [linkOf]
      rw [field_take en _ 16 8 4 (by omega) hl, field_take en _ 16 12 4 (by omega) hl]
    · rw [if_neg hl, if_neg (by omega)]; rfl
  · rw [if_neg h, if_neg h]

/-- Both loops over the commands. -/
private theorem select_fold (en : Endianness) (k : Nat) (hk : k ≠ 0x22 ∧ k ≠ 0x80000022)
    (step : Option (Nat × Nat) × Option DyldInfo → LoadCommandData → Res (Option (Nat × Nat) × Option DyldInfo))
    (hs : ∀ b c, step b c = (if c.cmd = k then (Bytes.readAt c.data 0 16).bind fun d => .ok (some (field en d 8 4, field en d 12 4)) else .ok none :
      Res (Option (Nat × Nat))).bind fun r => match r with
        | some x => .ok (some x, b.2)
        | none => (dyldInfoCmd en c).bind fun r => match r with
          | some x => .ok (b.1, some x)
          | none => .ok b)
    (cmds : List LoadCommandData) (b : Option (Nat × Nat) × Option DyldInfo) :
    (Complete (fun c => c.cmd = k) cmds → foldRes step b cmds =
      .ok (lastOf (fun c => c.cmd = k) (linkOf en) b.1 cmds, lastOf IsDyldInfo (infoOf en) b.2 cmds)) ∧
    (¬ Complete (fun c => c.cmd = k) cmds → foldRes step b cmds = .err) := by
  induction cmds generalizing b with
  | nil => exact ⟨fun _ => rfl, fun h => absurd (fun c hc => by simp at hc) h⟩
  | cons c cs ih =>
    have hcons : Complete (fun c => c.cmd = k) (c :: cs) ↔
        ((c.cmd = k → 16 ≤ c.data.length) ∧ (IsDyldInfo c → 48 ≤ c.data.length)) ∧ Complete (fun c => c.cmd = k) cs := by
      unfold Complete; simp
    have hstep : (((c.cmd = k → 16 ≤ c.data.length) ∧ (IsDyldInfo c → 48 ≤ c.data.length)) ∧ step b c =
          .ok (if c.cmd = k then some (linkOf en c) else b.1, if IsDyldInfo c then some (infoOf en c) else b.2)) ∨
        (¬ ((c.cmd = k → 16 ≤ c.data.length) ∧ (IsDyldInfo c → 48 ≤ c.data.length)) ∧ step b c = .err) := by
      rw [hs, link_eq, info_eq]
      by_cases h : c.cmd = k
      · have hi : ¬ IsDyldInfo c := by unfold IsDyldInfo; omega
        simp only [if_pos h, if_neg hi]
        by_cases hl : 16 ≤ c.data.length
        · left
          rw [if_pos hl]
          exact ⟨⟨fun _ => hl, fun h => absurd h hi⟩, rfl⟩
        · right
          rw [if_neg hl]
          exact ⟨fun hh => hl (hh.1 h), rfl⟩
      · simp only [if_neg h, Res.ok_bind]
        by_cases hi : IsDyldInfo c
        · simp only [if_pos hi]
          by_cases hl : 48 ≤ c.data.length
          · left
            rw [if_pos hl]
            exact ⟨⟨fun h' => absurd h' h, fun _ => hl⟩, rfl⟩
          · right
            rw [if_neg hl]
            exact ⟨fun hh => hl (hh.2 hi), rfl⟩
        · left
          simp only [if_neg hi]
          exact ⟨⟨fun h' => absurd h' h, fun h' => absurd h' hi⟩, rfl⟩
    rw [hcons]
    rcases hstep with ⟨h1, h2⟩ | ⟨h1, h2⟩
    · rw [foldRes, h2, Res.ok_bind]
      have := ih (if c.cmd = k then some (linkOf en c) else b.1, if IsDyldInfo c then some (infoOf en c) else b.2)
      exact ⟨fun h => this.1 h.2, fun h => this.2 fun h' => h ⟨h1, h'⟩⟩
    · rw [foldRes, h2]
      exact ⟨fun h => absurd h.1 h1, fun _ => rfl⟩

theorem import_select (en : Endianness) (cmds : List LoadCommandData) :
    (Complete IsFixups cmds → foldRes (importStep en) (none, none) cmds =
      .ok (lastOf IsFixups (linkOf en) none cmds, lastOf IsDyldInfo (infoOf en) none cmds)) ∧
    (¬ Complete IsFixups cmds → foldRes (importStep en) (none, none) cmds = .err) :=
  select_fold en 0x80000034 (by decide) (importStep en) (fun _ _ => rfl) cmds (none, none)

theorem export_select (en : Endianness) (cmds : List LoadCommandData) :
    (Complete IsTrie cmds → foldRes (exportStep en) (none, none) cmds =
      .ok (lastOf IsTrie (linkOf en) none cmds, lastOf IsDyldInfo (infoOf en) none cmds)) ∧
    (¬ Complete IsTrie cmds → foldRes (exportStep en) (none, none) cmds = .err) :=
  select_fold en 0x80000033 (by decide) (exportStep en) (fun _ _ => rfl) cmds (none, none)

/-- What `imports` does, when the commands are known. -/
theorem imports_eq {f : File} {data : List UInt8} {cmds : List LoadCommandData} {e : End} (hc : Commands f data cmds e) (he : e ≠ .panic) :
    (e = .done ∧ Complete IsFixups cmds → imports f data =
      match lastOf IsFixups (linkOf f.cfg.en) none cmds with
      | some c => newFixups f data c
      | none => match lastOf IsDyldInfo (infoOf f.cfg.en) none cmds with
        | some c => newDyld f data c
        | none => newSymbols f data) ∧
    (¬ (e = .done ∧ Complete IsFixups cmds) → imports f data = .err) := by
  obtain ⟨cs, h1, h2⟩ := hc
  obtain ⟨s1, s2⟩ := import_select f.cfg.en cmds
  unfold imports
  rw [h1, Res.ok_bind, for_eq _ h2]
  refine ⟨fun ⟨h3, h4⟩ => ?_, fun h => ?_⟩
  · subst h3
    rw [s1 h4]; rfl
  · by_cases h4 : Complete IsFixups cmds
    · rw [s1 h4]
      cases e with
      | done => exact absurd ⟨rfl, h4⟩ h
      | err => rfl
      | panic => exact absurd rfl he
    · rw [s2 h4]; rfl

/-- What `exports` does, when the commands are known. -/
theorem exports_eq {f : File} {data : List UInt8} {cmds : List LoadCommandData} {e : End} (hc : Commands f data cmds e) (he : e ≠ .panic) :
    (e = .done ∧ Complete IsTrie cmds → exports f data =
      match lastOf IsTrie (linkOf f.cfg.en) none cmds with
      | some c => (ReadRef.readBytesAt data c.1 c.2).bind fun d => .ok (.trie (imageBase f) none (Trie.NodeIter.new d))
      | none => match lastOf IsDyldInfo (infoOf f.cfg.en) none cmds with
        | some c => (ReadRef.readBytesAt data c.exportOff c.exportSize).bind fun d => .ok (.trie (imageBase f) none (Trie.NodeIter.new d))
        | none => .ok (.symbols f.symbols.symbols)) ∧
    (¬ (e = .done ∧ Complete IsTrie cmds) → exports f data = .err) := by
  obtain ⟨cs, h1, h2⟩ := hc
  obtain ⟨s1, s2⟩ := export_select f.cfg.en cmds
  unfold exports
  rw [h1, Res.ok_bind, for_eq _ h2]
  refine ⟨fun ⟨h3, h4⟩ => ?_, fun h => ?_⟩
  · subst h3
    rw [s1 h4]; rfl
  · by_cases h4 : Complete IsTrie cmds
    · rw [s1 h4]
      cases e with
      | done => exact absurd ⟨rfl, h4⟩ h
      | err => rfl
      | panic => exact absurd rfl he
    · rw [s2 h4]; rfl

/-! ## Imports -/

theorem drains_map {σ τ α : Type} {next : σ → Res (Option α) × σ} {next' : τ → Res (Option α) × τ} (g : σ → τ)
    (hg : ∀ s, next' (g s) = ((next s).1, g (next s).2)) {s : σ} {xs : List (Res α)} (h : Drains next s xs) : Drains next' (g s) xs := by
  induction h with
  | done h1 => exact .done (by rw [hg, h1])
  | item h1 _ ih => exact .item (by rw [hg, h1]) ih
  | err h1 _ ih => exact .err (by rw [hg, h1]) ih
  | panic h1 => exact .panic (by rw [hg, h1])

theorem read_no_panic (data : List UInt8) (o n : Nat) : ReadRef.readBytesAt data o n ≠ .panic := by
  rw [readRef_readBytesAt_eq]; split <;> simp

theorem twolevel_iff (f : File) : (decide (f.header.flags &&& 0x80 = 0x80)) = true ↔ TwoLevel f := by
  unfold TwoLevel
  rw [and_80]
  simp only [decide_eq_true_eq]; omega

theorem newSymbols_ok {f : File} {data : List UInt8} {cmds : List LoadCommandData} (hc : Commands f data cmds .done) :
    newSymbols f data ≠ .panic ∧ (∀ it, newSymbols f data = .ok it →
      ∃ libs xs, (TwoLevel f → Names f.cfg.en cmds libs) ∧ Outs (SymbolOut f data (TwoLevel f) libs) f.symbols.symbols xs ∧
        Drains (ImportIt.next f data) it xs) ∧
    ∀ libs xs, (TwoLevel f → Names f.cfg.en cmds libs) → Outs (SymbolOut f data (TwoLevel f) libs) f.symbols.symbols xs →
      ∃ it, newSymbols f data = .ok it ∧ Drains (ImportIt.next f data) it xs := by
  have ht := twolevel_iff f
  obtain ⟨l1, l2⟩ := libraries_iff hc (by simp)
  unfold newSymbols
  simp only
  have hd : ∀ libs L xs, (TwoLevel f → L = [] :: libs) → Outs (SymbolOut f data (TwoLevel f) libs) f.symbols.symbols xs →
      Drains (ImportIt.next f data) (.symbols (decide (f.header.flags &&& 0x80 = 0x80)) L f.symbols.symbols) xs := by
    intro libs L xs h h'
    exact drains_map (fun ys => ImportIt.symbols _ L ys) (fun _ => rfl) (symbols_drain f data _ _ ht libs L h h')
  by_cases hT : TwoLevel f
  · rw [if_pos (ht.2 hT)]
    refine ⟨?_, ?_, ?_⟩
    · cases hL : libraries f data with
      | ok => simp
      | err => simp
      | panic => exact absurd hL l1
    · intro it hit
      obtain ⟨L, hL, hit⟩ := (Res.bind_eq_ok ..).1 hit
      simp only [Res.ok.injEq] at hit
      subst hit
      obtain ⟨-, names, rfl, hn⟩ := (l2 L).1 hL
      obtain ⟨xs, hx⟩ := outs_exist (P := SymbolOut f data (TwoLevel f) names) f.symbols.symbols fun y _ => symbols_out f data _ names y
      exact ⟨names, xs, fun _ => hn, hx, hd names _ xs (fun _ => rfl) hx⟩
    · intro libs xs h1 h2
      rw [(l2 ([] :: libs)).2 ⟨rfl, libs, rfl, h1 hT⟩, Res.ok_bind]
      exact ⟨_, rfl, hd libs _ xs (fun _ => rfl) h2⟩
  · rw [if_neg (fun h => hT (ht.1 h)), Res.ok_bind]
    refine ⟨by simp, ?_, ?_⟩
    · intro it hit
      simp only [Res.ok.injEq] at hit
      subst hit
      obtain ⟨xs, hx⟩ := outs_exist (P := SymbolOut f data (TwoLevel f) []) f.symbols.symbols fun y _ => symbols_out f data _ [] y
      exact ⟨[], xs, fun h => absurd h hT, hx, hd [] _ xs (fun h => absurd h hT) hx⟩
    · intro libs xs _ h2
      exact ⟨_, rfl, hd libs _ xs (fun h => absurd h hT) h2⟩

theorem newDyld_ok {f : File} {data : List UInt8} {cmds : List LoadCommandData} (hc : Commands f data cmds .done) (c : DyldInfo) :
    newDyld f data c ≠ .panic ∧ (∀ it, newDyld f data c = .ok it →
      ∃ s0 s1 s2 libs xs, PartIs data c.bindOff c.bindSize s0 ∧ PartIs data c.weakOff c.weakSize s1 ∧ PartIs data c.lazyOff c.lazySize s2 ∧
        Names f.cfg.en cmds libs ∧ Streams libs s0 s1 s2 xs ∧ Drains (ImportIt.next f data) it xs) ∧
    ∀ s0 s1 s2 libs xs, PartIs data c.bindOff c.bindSize s0 → PartIs data c.weakOff c.weakSize s1 → PartIs data c.lazyOff c.lazySize s2 →
        Names f.cfg.en cmds libs → Streams libs s0 s1 s2 xs → ∃ it, newDyld f data c = .ok it ∧ Drains (ImportIt.next f data) it xs := by
  obtain ⟨l1, l2⟩ := libraries_iff hc (by simp)
  have hd : ∀ libs s0 s1 s2 xs, Streams libs s0 s1 s2 xs →
      Drains (ImportIt.next f data) (.dyld ([] :: libs) ⟨[s0, s1, s2], 0, false, none, none, false⟩) xs := fun libs s0 s1 s2 xs h =>
    drains_map (fun s => ImportIt.dyld ([] :: libs) s) (fun _ => rfl) (streams_drain h)
  unfold newDyld
  refine ⟨?_, ?_, ?_⟩
  · refine Res.bind_no_panic (read_no_panic _ _ _) fun s0 _ => Res.bind_no_panic (read_no_panic _ _ _) fun s1 _ =>
      Res.bind_no_panic (read_no_panic _ _ _) fun s2 _ => Res.bind_no_panic l1 fun L _ => by simp
  · intro it hit
    obtain ⟨s0, h0, hit⟩ := (Res.bind_eq_ok ..).1 hit
    obtain ⟨s1, h1, hit⟩ := (Res.bind_eq_ok ..).1 hit
    obtain ⟨s2, h2, hit⟩ := (Res.bind_eq_ok ..).1 hit
    obtain ⟨L, hL, hit⟩ := (Res.bind_eq_ok ..).1 hit
    simp only [Res.ok.injEq] at hit
    subst hit
    obtain ⟨-, names, rfl, hn⟩ := (l2 L).1 hL
    obtain ⟨xs, hx⟩ := streams_exist names s0 s1 s2
    exact ⟨s0, s1, s2, names, xs, (part_iff ..).1 h0, (part_iff ..).1 h1, (part_iff ..).1 h2, hn, hx, hd _ _ _ _ _ hx⟩
  · intro s0 s1 s2 libs xs h0 h1 h2 hn hx
    rw [(part_iff ..).2 h0, Res.ok_bind, (part_iff ..).2 h1, Res.ok_bind, (part_iff ..).2 h2, Res.ok_bind,
      (l2 ([] :: libs)).2 ⟨rfl, libs, rfl, hn⟩, Res.ok_bind]
    exact ⟨_, rfl, hd _ _ _ _ _ hx⟩

theorem newFixups_ok {f : File} {data : List UInt8} {cmds : List LoadCommandData} (hc : Commands f data cmds .done) (c : Nat × Nat) :
    newFixups f data c ≠ .panic ∧ (∀ it, newFixups f data c = .ok it →
      ∃ x libs ys xs, Fixup.chainedFixups f.cfg.en data c.1 c.2 = .ok x ∧ x.header.symbolsFormat = 0 ∧ x.header.importsOffset ≤ x.data.length ∧
        x.header.symbolsOffset ≤ x.data.length ∧ Names f.cfg.en cmds libs ∧ Spec.Fixup.Imports f.cfg.en x 0 ys ∧ Outs (FixupOut libs) ys xs ∧
        Drains (ImportIt.next f data) it xs) ∧
    ∀ x libs ys xs, Fixup.chainedFixups f.cfg.en data c.1 c.2 = .ok x → x.header.symbolsFormat = 0 → x.header.importsOffset ≤ x.data.length →
        x.header.symbolsOffset ≤ x.data.length → Names f.cfg.en cmds libs → Spec.Fixup.Imports f.cfg.en x 0 ys → Outs (FixupOut libs) ys xs →
        ∃ it, newFixups f data c = .ok it ∧ Drains (ImportIt.next f data) it xs := by
  obtain ⟨l1, l2⟩ := libraries_iff hc (by simp)
  have hd : ∀ libs (s : Fixup.ImportIt) ys xs, Drains Fixup.ImportIt.next s ys → Outs (FixupOut libs) ys xs →
      Drains (ImportIt.next f data) (.fixups ([] :: libs) s) xs := fun libs s ys xs h h' =>
    drains_map (fun s => ImportIt.fixups ([] :: libs) s) (fun _ => rfl) (fixups_drain h h')
  unfold newFixups
  refine ⟨?_, ?_, ?_⟩
  · refine Res.bind_no_panic ?_ fun x _ => Res.bind_no_panic (Props.C81_imports ..).1 fun it _ => Res.bind_no_panic l1 fun L _ => by simp
    unfold Fixup.chainedFixups
    exact Res.bind_no_panic (read_no_panic _ _ _) fun d _ => (Props.C81_parse f.cfg.en d).1
  · intro it hit
    obtain ⟨x, h0, hit⟩ := (Res.bind_eq_ok ..).1 hit
    obtain ⟨i, h1, hit⟩ := (Res.bind_eq_ok ..).1 hit
    obtain ⟨L, hL, hit⟩ := (Res.bind_eq_ok ..).1 hit
    simp only [Res.ok.injEq] at hit
    subst hit
    obtain ⟨-, names, rfl, hn⟩ := (l2 L).1 hL
    obtain ⟨-, g1, g2⟩ := Props.C81_imports f.cfg.en x
    obtain ⟨a, b, c⟩ := g1.1 ⟨i, h1⟩
    obtain ⟨⟨ys, hy⟩, g3⟩ := g2 i h1
    obtain ⟨xs, hx⟩ := outs_exist (P := FixupOut names) ys fun y hm => fixups_out names y (fixups_good hy y hm)
    exact ⟨x, names, ys, xs, h0, a, b, c, hn, hy, hx, hd names i ys xs (g3 ys hy) hx⟩
  · intro x libs ys xs h0 a b c hn hy hx
    obtain ⟨-, g1, g2⟩ := Props.C81_imports f.cfg.en x
    obtain ⟨i, hi⟩ := g1.2 ⟨a, b, c⟩
    rw [h0, Res.ok_bind, hi, Res.ok_bind, (l2 ([] :: libs)).2 ⟨rfl, libs, rfl, hn⟩, Res.ok_bind]
    exact ⟨_, rfl, hd libs i ys xs ((g2 i hi).2 ys hy) hx⟩

/-! ## Exports -/

theorem sectionInternal_cases (f : File) (n : Nat) :
    (∃ s k, sectionInternal f n = .ok s ∧ n = k + 1 ∧ f.sections[k]? = some s) ∨
    (sectionInternal f n = .err ∧ ¬ ∃ s k, n = k + 1 ∧ f.sections[k]? = some s) := by
  unfold sectionInternal
  by_cases h : n = 0
  · right
    rw [if_pos h]
    exact ⟨rfl, fun ⟨s, k, hk, _⟩ => by omega⟩
  · obtain ⟨k, rfl⟩ : ∃ k, n = k + 1 := ⟨n - 1, by omega⟩
    rw [if_neg h, Nat.add_sub_cancel]
    cases hs : f.sections[k]? with
    | some s => exact .inl ⟨s, k, rfl, rfl, hs⟩
    | none =>
      right
      refine ⟨rfl, fun ⟨s, j, hj, h'⟩ => ?_⟩
      have : j = k := by omega
      subst this
      rw [hs] at h'; simp at h'

theorem symbolTarget_cases (f : File) (data : List UInt8) (y : Nlist) :
    (∃ t, symbolTarget f data y = .ok (some t) ∧ SymbolTarget f data y t ∧ y.typ / 2 % 8 ∈ [1, 5, 7]) ∨
    (symbolTarget f data y = .err ∧ (¬ ∃ t, SymbolTarget f data y t) ∧ y.typ / 2 % 8 ∈ [1, 5, 7]) ∨
    (symbolTarget f data y = .ok none ∧ y.typ / 2 % 8 ∉ [1, 5, 7]) := by
  unfold symbolTarget MachoV.typ
  rw [and_0e, and_100]
  by_cases h1 : y.typ / 2 % 8 = 1
  · left
    rw [if_pos (by omega)]
    exact ⟨_, rfl, .absolute h1, by simp [h1]⟩
  rw [if_neg (by omega)]
  by_cases h5 : y.typ / 2 % 8 = 5
  · rw [if_pos (by omega)]
    by_cases hv : y.value < U32
    · rw [if_pos hv]
      cases hs : f.symbols.strings.get data y.value with
      | panic => exact absurd hs (strGet _ _ _)
      | ok name => exact .inl ⟨_, rfl, .indirect h5 hv hs, by simp [h5]⟩
      | err =>
        refine .inr (.inl ⟨rfl, ?_, by simp [h5]⟩)
        rintro ⟨t, ht⟩
        cases ht with
        | absolute h => omega
        | indirect _ _ h => rw [hs] at h; simp at h
        | resolver h => omega
        | tlv h => omega
        | address h => omega
    · rw [if_neg hv]
      refine .inr (.inl ⟨rfl, ?_, by simp [h5]⟩)
      rintro ⟨t, ht⟩
      cases ht with
      | absolute h => omega
      | indirect _ h _ => exact hv h
      | resolver h => omega
      | tlv h => omega
      | address h => omega
  rw [if_neg (by omega)]
  by_cases h7 : y.typ / 2 % 8 = 7
  · rw [if_pos (by omega)]
    by_cases hd : y.desc / 256 % 2 = 1
    · left
      rw [if_pos (by omega)]
      exact ⟨_, rfl, .resolver h7 hd, by simp [h7]⟩
    · rw [if_neg (by omega)]
      have hd' : y.desc / 256 % 2 = 0 := by omega
      rcases sectionInternal_cases f y.sect with ⟨s, k, hs, hk, hg⟩ | ⟨hs, hn⟩
      · left
        rw [hs, Res.ok_bind, and_ff]
        by_cases hf : s.sect.flags % 256 = 0x13
        · rw [if_pos hf]
          exact ⟨_, rfl, .tlv h7 hd' (.tlv hk hg hf), by simp [h7]⟩
        · rw [if_neg hf]
          exact ⟨_, rfl, .address h7 hd' (.other hk hg hf), by simp [h7]⟩
      · refine .inr (.inl ⟨by rw [hs]; rfl, ?_, by simp [h7]⟩)
        rintro ⟨t, ht⟩
        cases ht with
        | absolute h => omega
        | indirect h => omega
        | resolver _ h => omega
        | tlv _ _ h => cases h with | tlv a b => exact hn ⟨_, _, a, b⟩
        | address _ _ h => cases h with | other a b => exact hn ⟨_, _, a, b⟩
  rw [if_neg (by omega)]
  exact .inr (.inr ⟨rfl, by simp [h1, h5, h7]⟩)

theorem symbolExport_exist (f : File) (data : List UInt8) (y : Nlist) : ∃ r, SymbolExport f data y r := by
  by_cases hv : Visible y
  · cases hs : f.symbols.strings.get data y.strx with
    | panic => exact absurd hs (strGet _ _ _)
    | err => exact ⟨_, .badName hv fun ⟨_, h⟩ => by rw [hs] at h; simp at h⟩
    | ok name =>
      rcases symbolTarget_cases f data y with ⟨t, -, ht, -⟩ | ⟨-, hn, hm⟩ | ⟨-, hm⟩
      · exact ⟨_, .item (weak := decide (y.desc / 128 % 2 = 1)) hv hs ht (by simp)⟩
      · exact ⟨_, .badTarget hv hs hm hn⟩
      · exact ⟨_, .otherType hv hs hm⟩
  · exact ⟨_, .hidden hv⟩

theorem symbolTarget_unique {f : File} {data : List UInt8} {y : Nlist} {t t' : Target} (h : SymbolTarget f data y t) (h' : SymbolTarget f data y t') :
    t = t' := by
  have hin : ¬ (InSection f y.sect true ∧ InSection f y.sect false) := by
    rintro ⟨a, b⟩
    cases a with
    | @tlv k s h1 h2 h3 =>
      cases b with
      | @other k' s' h1' h2' h3' =>
        have : k = k' := by omega
        subst this
        rw [h2] at h2'
        cases h2'
        exact h3' h3
  cases h with
  | absolute h => cases h' <;> first | rfl | omega
  | indirect h _ hg =>
    cases h' with
    | indirect _ _ hg' => rw [hg] at hg'; cases hg'; rfl
    | absolute => omega
    | resolver => omega
    | tlv => omega
    | address => omega
  | resolver h => cases h' <;> first | rfl | omega
  | tlv h hd hi =>
    cases h' with
    | tlv => rfl
    | address _ _ hj => exact absurd ⟨hi, hj⟩ hin
    | absolute => omega
    | indirect => omega
    | resolver => omega
  | address h hd hi =>
    cases h' with
    | address => rfl
    | tlv _ _ hj => exact absurd ⟨hj, hi⟩ hin
    | absolute => omega
    | indirect => omega
    | resolver => omega

theorem exportSymbols_drain (f : File) (data : List UInt8) {ys : List Nlist} {xs : List (Res Export)} (hx : Outs (SymbolExport f data) ys xs) :
    Drains (exportSymbolsNext f data) ys xs := by
  have hname : ∀ y, f.symbols.name data y = f.symbols.strings.get data y.strx := fun _ => rfl
  have hweak : ∀ (y : Nlist) (weak : Bool), (weak = true ↔ y.desc / 128 % 2 = 1) → decide (y.desc &&& 0x80 = 0x80) = weak := by
    intro y weak h
    rw [Bool.eq_iff_iff, h, and_80]
    simp only [decide_eq_true_eq]; omega
  induction hx with
  | nil => exact .done (s' := []) rfl
  | @none y ys xs h _ ih =>
    refine Drains.congr ?_ ih
    rw [exportSymbolsNext]
    cases h with
    | hidden h => rw [if_pos ((visible_iff y).2 h)]
    | otherType h1 h2 h3 =>
      rw [if_neg (fun h => (visible_iff y).1 h h1), hname, h2]
      rcases symbolTarget_cases f data y with ⟨t, -, -, hm⟩ | ⟨-, -, hm⟩ | ⟨hs, -⟩
      · exact absurd hm h3
      · exact absurd hm h3
      · simp only [hs]
  | @some y r ys xs h _ ih =>
    cases h with
    | badName h1 h2 =>
      refine .err (s' := ys) ?_ ih
      rw [exportSymbolsNext, if_neg (fun h => (visible_iff y).1 h h1), hname]
      cases hs : f.symbols.strings.get data y.strx with
      | panic => exact absurd hs (strGet _ _ _)
      | err => rfl
      | ok name => exact absurd ⟨name, hs⟩ h2
    | badTarget h1 h2 h3 h4 =>
      refine .err (s' := ys) ?_ ih
      rw [exportSymbolsNext, if_neg (fun h => (visible_iff y).1 h h1), hname, h2]
      rcases symbolTarget_cases f data y with ⟨t, -, ht, -⟩ | ⟨hs, -, -⟩ | ⟨-, hm⟩
      · exact absurd ⟨t, ht⟩ h4
      · simp only [hs]
      · exact absurd h3 hm
    | item h1 h2 h3 h4 =>
      refine .item (s' := ys) ?_ ih
      rw [exportSymbolsNext, if_neg (fun h => (visible_iff y).1 h h1), hname, h2]
      rcases symbolTarget_cases f data y with ⟨t, hs, ht, -⟩ | ⟨-, hs, -⟩ | ⟨-, hm⟩
      · simp only [hs]
        rw [hweak y _ h4, symbolTarget_unique h3 ht]
      · exact absurd ⟨_, h3⟩ hs
      · exact absurd (by cases h3 <;> simp_all) hm

theorem imageBase_iff (f : File) (base : Nat) : imageBase f = base ↔ BaseIs f base := by
  have hex : BaseIs f (imageBase f) := by
    unfold imageBase
    cases h : f.segments.find? (fun s => upToNul s.segname = "__TEXT".toUTF8.toList) with
    | none =>
      refine .none fun t ht => ?_
      have := List.find?_eq_none.1 h t ht
      simpa using this
    | some s =>
      obtain ⟨h1, as, bs, h2, h3⟩ := List.find?_eq_some_iff_append.1 h
      refine .text h2 (by simpa using h1) fun t ht => ?_
      have := h3 t ht
      simpa using this
  constructor
  · rintro rfl; exact hex
  · intro h
    unfold imageBase
    cases h with
    | none h =>
      have : f.segments.find? (fun s => upToNul s.segname = "__TEXT".toUTF8.toList) = none := by
        rw [List.find?_eq_none]; intro t ht; simpa using h t ht
      rw [this]
    | text h1 h2 h3 =>
      have : f.segments.find? (fun s => upToNul s.segname = "__TEXT".toUTF8.toList) = some _ :=
        List.find?_eq_some_iff_append.2 ⟨by simpa using h2, _, _, h1, fun t ht => by simpa using h3 t ht⟩
      rw [this]

/-- The libraries that the iterator keeps are those of the file, if it has them. -/
def Cache (libs : Option (List (List UInt8))) (cache : Option (List (List UInt8))) : Prop :=
  cache = none ∨ ∃ ls, libs = some ls ∧ cache = some ([] :: ls)

theorem trieTarget_out {f : File} {data : List UInt8} {cmds : List LoadCommandData} (hc : Commands f data cmds .done)
    {libs : Option (List (List UInt8))} (hl : NamesIf f.cfg.en cmds libs) {cache : Option (List (List UInt8))} (hk : Cache libs cache)
    (base : Nat) (y : Trie.ExportSymbol) :
    Cache libs (trieTarget f data base cache y).2 ∧
    ((∃ t, (trieTarget f data base cache y).1 = .ok t ∧ TrieTarget base libs y.flags y.data t) ∨
     ((trieTarget f data base cache y).1 = .err ∧ ¬ ∃ t, TrieTarget base libs y.flags y.data t)) := by
  unfold trieTarget
  cases hd : y.data with
  | regular a =>
    refine ⟨hk, ?_⟩
    simp only [and_03]
    by_cases h2 : y.flags % 4 = 2
    · rw [if_pos h2]; exact .inl ⟨_, rfl, .absolute h2⟩
    rw [if_neg h2]
    by_cases h1 : y.flags % 4 = 1
    · rw [if_pos h1]; exact .inl ⟨_, rfl, .tlv h1⟩
    rw [if_neg h1]
    by_cases h0 : y.flags % 4 = 0
    · rw [if_pos h0]; exact .inl ⟨_, rfl, .address h0⟩
    rw [if_neg h0]
    refine .inr ⟨rfl, ?_⟩
    rintro ⟨t, ht⟩
    cases ht <;> omega
  | stubAndResolver stub resolver =>
    refine ⟨hk, ?_⟩
    simp only [and_03]
    by_cases h0 : y.flags % 4 = 0
    · rw [if_neg (by simpa using h0)]; exact .inl ⟨_, rfl, .resolver h0⟩
    · rw [if_pos h0]
      refine .inr ⟨rfl, ?_⟩
      rintro ⟨t, ht⟩
      cases ht; omega
  | reexport ordinal name =>
    have hfind : ∀ ls, libs = some ls → (∃ t, (if ordinal = 0 then (.err : Res Target)
          else match ([] :: ls : List (List UInt8))[ordinal]? with | some x => .ok (.reexport x name) | none => .err) = .ok t ∧
            TrieTarget base libs y.flags (.reexport ordinal name) t) ∨
        ((if ordinal = 0 then (.err : Res Target)
          else match ([] :: ls : List (List UInt8))[ordinal]? with | some x => .ok (.reexport x name) | none => .err) = .err ∧
            ¬ ∃ t, TrieTarget base libs y.flags (.reexport ordinal name) t) := by
      intro ls hls
      by_cases h0 : ordinal = 0
      · right
        rw [if_pos h0]
        refine ⟨rfl, ?_⟩
        rintro ⟨t, ht⟩
        cases ht
        omega
      · obtain ⟨k, rfl⟩ : ∃ k, ordinal = k + 1 := ⟨ordinal - 1, by omega⟩
        rw [if_neg h0, List.getElem?_cons_succ]
        cases hg : ls[k]? with
        | some l => exact .inl ⟨_, rfl, .reexport hls hg⟩
        | none =>
          right
          refine ⟨rfl, ?_⟩
          rintro ⟨t, ht⟩
          cases ht with
          | reexport h1 h2 =>
            rw [hls] at h1
            cases h1
            rw [hg] at h2; simp at h2
    simp only
    obtain ⟨l1, l2⟩ := libraries_iff hc (by simp)
    rcases hk with rfl | ⟨ls, hls, rfl⟩
    · simp only
      cases hL : libraries f data with
      | panic => exact absurd hL l1
      | ok L =>
        obtain ⟨-, ls, rfl, hn⟩ := (l2 L).1 hL
        cases libs with
        | none => exact absurd ⟨ls, hn⟩ hl
        | some ls' =>
          have e1 := (l2 ([] :: ls')).2 ⟨rfl, ls', rfl, hl⟩
          rw [hL] at e1
          simp only [Res.ok.injEq, List.cons.injEq, true_and] at e1
          subst e1
          exact ⟨.inr ⟨ls, rfl, rfl⟩, hfind ls rfl⟩
      | err =>
        refine ⟨.inl rfl, .inr ⟨rfl, ?_⟩⟩
        rintro ⟨t, ht⟩
        cases ht with
        | @reexport ls k l _ h1 h2 =>
          subst h1
          rw [(l2 ([] :: ls)).2 ⟨rfl, ls, rfl, hl⟩] at hL
          simp at hL
    · exact ⟨.inr ⟨ls, hls, rfl⟩, hfind ls hls⟩

theorem trieTarget_unique {base : Nat} {libs : Option (List (List UInt8))} {flags : Nat} {d : Trie.ExportData} {t t' : Target}
    (h : TrieTarget base libs flags d t) (h' : TrieTarget base libs flags d t') : t = t' := by
  cases h with
  | address => cases h' <;> first | rfl | omega
  | tlv => cases h' <;> first | rfl | omega
  | absolute => cases h' <;> first | rfl | omega
  | resolver => cases h'; rfl
  | reexport h1 h2 =>
    cases h' with
    | reexport h3 h4 =>
      rw [h1] at h3
      cases h3
      rw [h2] at h4
      cases h4
      rfl

theorem trieExport_exist (base : Nat) (libs : Option (List (List UInt8))) (y : Trie.ExportSymbol) : ∃ r, TrieExport base libs y r := by
  by_cases h : ∃ t, TrieTarget base libs y.flags y.data t
  · obtain ⟨t, ht⟩ := h
    exact ⟨_, .item (weak := decide (y.flags / 4 % 2 = 1)) ht (by simp)⟩
  · exact ⟨_, .bad h⟩

/-- One result of the trie. -/
theorem trieNext_item {f : File} {data : List UInt8} {cmds : List LoadCommandData} (hc : Commands f data cmds .done)
    {libs : Option (List (List UInt8))} (hl : NamesIf f.cfg.en cmds libs) {cache : Option (List (List UInt8))} (hk : Cache libs cache)
    {base : Nat} {it it' : Trie.NodeIter} {y : Trie.ExportSymbol} (h : Trie.next it = (.ok (some y), it')) {r : Res Export}
    (hr : TrieExport base libs y r) :
    ∃ cache', Cache libs cache' ∧ r ≠ .panic ∧ ExportIt.next f data (.trie base cache it) = (r.bind fun x => .ok (some x), .trie base cache' it') := by
  obtain ⟨h1, h2⟩ := trieTarget_out hc hl hk base y
  refine ⟨(trieTarget f data base cache y).2, h1, by cases hr <;> simp, ?_⟩
  simp only [ExportIt.next, trieNext, h]
  cases hT : trieTarget f data base cache y with
  | mk q c =>
    rw [hT] at h2
    rcases h2 with ⟨t, hq, ht⟩ | ⟨hq, hn⟩
    · simp only at hq
      subst hq
      cases hr with
      | bad hb => exact absurd ⟨t, ht⟩ hb
      | @item t' weak ht' hw =>
        rw [trieTarget_unique ht' ht]
        have : decide (y.flags &&& 4 = 4) = weak := by
          rw [Bool.eq_iff_iff, hw, and_04]
          simp only [decide_eq_true_eq]; omega
        simp only [this]; rfl
    · simp only at hq
      subst hq
      cases hr with
      | bad hb => rfl
      | item ht' => exact absurd ⟨_, ht'⟩ hn

/-- Several results of the trie. -/
theorem trie_begins {f : File} {data : List UInt8} {cmds : List LoadCommandData} (hc : Commands f data cmds .done)
    {libs : Option (List (List UInt8))} (hl : NamesIf f.cfg.en cmds libs) {base : Nat} {it : Trie.NodeIter} {ys : List Trie.ExportSymbol} {e : End}
    (h : Runs Trie.next it ys e) {zs : List (Res Export)} (hz : Each (TrieExport base libs) ys zs)
    {cache : Option (List (List UInt8))} (hk : Cache libs cache) :
    (e = .done → Drains (ExportIt.next f data) (.trie base cache it) zs) ∧
    (e = .err → Begins (ExportIt.next f data) (.trie base cache it) (zs ++ [.err])) := by
  induction h generalizing zs cache with
  | @done s s' h1 =>
    cases hz
    refine ⟨fun _ => .done (s' := .trie base cache s') ?_, by simp⟩
    simp only [ExportIt.next, trieNext, h1]
  | @err s s' h1 =>
    cases hz
    refine ⟨by simp, fun _ => .err (s' := .trie base cache s') ?_ .nil⟩
    simp only [ExportIt.next, trieNext, h1]
  | panic => exact ⟨by simp, by simp⟩
  | @item s s' y ys e h1 _ ih =>
    cases hz with
    | @cons _ r _ zs hr hz =>
      obtain ⟨cache', hk', hp, hn⟩ := trieNext_item hc hl hk h1 hr
      obtain ⟨i1, i2⟩ := ih hz hk'
      cases r with
      | panic => exact absurd rfl hp
      | ok x => exact ⟨fun he => .item hn (i1 he), fun he => .item hn (i2 he)⟩
      | err => exact ⟨fun he => .err hn (i1 he), fun he => .err hn (i2 he)⟩

theorem trieExports_exist (base : Nat) (libs : Option (List (List UInt8))) (ys : List Trie.ExportSymbol) :
    ∃ zs, Each (TrieExport base libs) ys zs := by
  induction ys with
  | nil => exact ⟨[], .nil⟩
  | cons y ys ih =>
    obtain ⟨zs, h⟩ := ih
    obtain ⟨r, hr⟩ := trieExport_exist base libs y
    exact ⟨r :: zs, .cons hr h⟩

end Obj.MachoI
