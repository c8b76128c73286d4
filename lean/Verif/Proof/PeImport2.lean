import Verif.Proof.PeImport
import Verif.Props.Pe

namespace Obj.Pe
open Obj Obj.Spec.Pe

theorem dataOf_iff (ss : List Coff.Section) (data : List UInt8) (a : Nat) (d : List UInt8) (va : Nat) :
    dataContaining ss data a = some (d, va) ↔ DataOf ss data a d va := Props.C30_data_containing ss data a d va

theorem getDir_iff (dirs : List DataDir) (i : Nat) (d : DataDir) : getDir dirs i = some d ↔ dirs[i]? = some d ∧ d.virtualAddress ≠ 0 :=
  (Props.C30_directories [] 0 (by decide)).2.2 dirs i d

theorem dataOf_fits {ss : List Coff.Section} {data : List UInt8} {a : Nat} {d : List UInt8} {va : Nat} (h : DataOf ss data a d va) :
    va ≤ a ∧ a - va < d.length ∧ ∃ s ∈ ss, va = s.virtualAddress := by
  obtain ⟨s, ⟨pre, post, hss, ⟨h1, h2, h3⟩, -⟩, rfl, rfl⟩ := h
  refine ⟨h1, ?_, s, by rw [hss]; simp, rfl⟩
  rw [length_slice_of (.inr h3)]
  omega

theorem descriptors_of {data : List UInt8} {va a : Nat} (ha : a < 2 ^ 32) (h1 : va ≤ a) (h2 : a - va < data.length) :
    recsAt data va a = .ok ⟨data.drop (a - va), false⟩ := by
  refine recsAt_ok ha (by omega) ⟨by omega, ?_⟩ (by omega)
  rw [Nat.add_sub_cancel' h1, Nat.mod_eq_of_lt ha]

/-- The first record. -/
theorem recNext_first {d : List UInt8} (x : ImportDesc) :
    (recNext 20 ImportDesc.parse ImportDesc.isNull ⟨d, false⟩).1 = .ok (some x) ↔ ∃ ds e, ImportDescs d (x :: ds) e := by
  constructor
  · intro h
    obtain ⟨ds, e, hds⟩ := nullTerm_exists (size := 20) (by decide) ImportDesc.parse (fun d => d = ⟨0, 0, 0, 0, 0⟩) d
    cases hds with
    | null hi hn => rw [recNext_null hi ((importDesc_null _).2 hn)] at h; simp at h
    | missing hl => rw [recNext_missing hl] at h; simp at h
    | @item i tl xs e hi hn ht =>
      have hf : ImportDesc.isNull (ImportDesc.parse i) = false := by
        cases hc : (ImportDesc.parse i).isNull with
        | false => rfl
        | true => exact absurd ((importDesc_null _).1 hc) hn
      rw [recNext_item hi hf] at h
      simp only [Res.ok.injEq, Option.some.injEq] at h
      rw [← h]
      exact ⟨xs, e, NullTerm.item hi hn ht⟩
  · rintro ⟨ds, e, hds⟩
    unfold ImportDescs at hds
    generalize hl : x :: ds = l at hds
    cases hds with
    | null => simp at hl
    | missing => simp at hl
    | @item i tl xs e hi hn ht =>
      have hf : ImportDesc.isNull (ImportDesc.parse i) = false := by
        cases hc : (ImportDesc.parse i).isNull with
        | false => rfl
        | true => exact absurd ((importDesc_null _).1 hc) hn
      simp only [List.cons.injEq] at hl
      rw [recNext_item hi hf, hl.1]
      rfl

theorem recNext_no_panic {α : Type} (size : Nat) (parse : List UInt8 → α) (isNull : α → Bool) (d : RecIter) :
    (recNext size parse isNull d).1 ≠ .panic := by
  obtain ⟨d, n⟩ := d
  cases n with
  | true => rw [recNext_end]; simp
  | false =>
    rcases Nat.lt_or_ge d.length size with h | h
    · rw [recNext_missing h]; simp
    · have hd := (List.take_append_drop size d).symm
      have hl : (d.take size).length = size := by rw [List.length_take]; omega
      rw [hd]
      cases hc : isNull (parse (d.take size)) with
      | true => rw [recNext_null hl hc]; simp
      | false => rw [recNext_item hl hc]; simp

/-- The first descriptor of a table in a section. -/
theorem firstDesc_iff {t : ImportTable} (ha : t.importAddress < 2 ^ 32) (h1 : t.sectionAddress ≤ t.importAddress) (d : ImportDesc) :
    FirstDesc t d ↔ (recNext 20 ImportDesc.parse ImportDesc.isNull ⟨t.sectionData.drop (t.importAddress - t.sectionAddress), false⟩).1 =
      .ok (some d) := by
  rw [recNext_first]
  constructor
  · rintro ⟨off, ds, e, hr, h⟩
    have : off = t.importAddress - t.sectionAddress := by
      obtain ⟨h2, h3⟩ := hr
      omega
    rw [← this]
    exact ⟨ds, e, h⟩
  · rintro ⟨ds, e, h⟩
    refine ⟨_, ds, e, ⟨by omega, ?_⟩, h⟩
    rw [Nat.add_sub_cancel' h1, Nat.mod_eq_of_lt ha]

/-- The two choices for the section of names. -/
def pickNames (ss : List Coff.Section) (data : List UInt8) (t : ImportTable) : Res (Option ImportDesc) → Res ImportTable
  | .ok (some desc) =>
    match dataContaining ss data desc.name with
    | some (nd, na) => .ok { t with nameData := nd, nameAddress := na }
    | none => .ok t
  | .ok none => .ok t
  | .err => .ok t
  | .panic => .panic

theorem fromSections_none {data : List UInt8} {ss : List Coff.Section} {a : Nat} (h : dataContaining ss data a = none) :
    ImportTable.fromSections data ss a = .err := by
  unfold ImportTable.fromSections
  rw [h]

theorem fromSections_some {data : List UInt8} {ss : List Coff.Section} {a : Nat} (ha : a < 2 ^ 32) {d : List UInt8} {va : Nat}
    (h : dataContaining ss data a = some (d, va)) :
    ImportTable.fromSections data ss a = pickNames ss data ⟨a, d, va, d, va⟩
      (recNext 20 ImportDesc.parse ImportDesc.isNull ⟨d.drop (a - va), false⟩).1 := by
  obtain ⟨h1, h2, -⟩ := dataOf_fits ((dataOf_iff ..).1 h)
  unfold ImportTable.fromSections
  rw [h]
  simp only
  have : (ImportTable.new d va a).descriptors = .ok ⟨d.drop (a - va), false⟩ := descriptors_of ha h1 h2
  rw [this]
  simp only
  unfold pickNames
  rfl

theorem fromSections_iff (data : List UInt8) (ss : List Coff.Section) (a : Nat) (ha : a < 2 ^ 32) (t : ImportTable) :
    ImportTable.fromSections data ss a = .ok t ↔ ImportTableOf ss data a t := by
  constructor
  · intro h
    cases hc : dataContaining ss data a with
    | none => rw [fromSections_none hc] at h; simp at h
    | some p =>
      obtain ⟨d, va⟩ := p
      rw [fromSections_some ha hc] at h
      have hD := (dataOf_iff ..).1 hc
      obtain ⟨h1, h2, -⟩ := dataOf_fits hD
      have hfirst := fun (nd : List UInt8) (na : Nat) => firstDesc_iff (t := ⟨a, d, va, nd, na⟩) ha h1
      simp only at hfirst
      cases hr : (recNext 20 ImportDesc.parse ImportDesc.isNull ⟨d.drop (a - va), false⟩).1 with
      | panic => exact absurd hr (recNext_no_panic _ _ _ _)
      | err =>
        rw [hr] at h
        obtain rfl := Res.ok.inj h
        exact ⟨rfl, hD, .inr ⟨fun x _ _ hx => by have := (hfirst d va x).1 hx; rw [hr] at this; simp at this, rfl, rfl⟩⟩
      | ok o =>
        cases o with
        | none =>
          rw [hr] at h
          obtain rfl := Res.ok.inj h
          exact ⟨rfl, hD, .inr ⟨fun x _ _ hx => by have := (hfirst d va x).1 hx; rw [hr] at this; simp at this, rfl, rfl⟩⟩
        | some x =>
          rw [hr] at h
          unfold pickNames at h
          simp only at h
          cases hn : dataContaining ss data x.name with
          | none =>
            rw [hn] at h
            obtain rfl := Res.ok.inj h
            refine ⟨rfl, hD, .inr ⟨fun y nd na hy hdn => ?_, rfl, rfl⟩⟩
            have := (hfirst d va y).1 hy
            rw [hr] at this
            simp only [Res.ok.injEq, Option.some.injEq] at this
            rw [← this, ← dataOf_iff, hn] at hdn
            simp at hdn
          | some q =>
            obtain ⟨nd, na⟩ := q
            rw [hn] at h
            obtain rfl := Res.ok.inj h
            exact ⟨rfl, hD, .inl ⟨x, (hfirst nd na x).2 hr, (dataOf_iff ..).1 hn⟩⟩
  · obtain ⟨ia, d, va, nd, na⟩ := t
    rintro ⟨h0, hD, hN⟩
    simp only at h0 hD hN
    subst h0
    obtain ⟨h1, h2, -⟩ := dataOf_fits hD
    rw [fromSections_some ha ((dataOf_iff ..).2 hD)]
    have hfirst := firstDesc_iff (t := ⟨ia, d, va, nd, na⟩) ha h1
    simp only at hfirst
    rcases hN with ⟨x, hx, hn⟩ | ⟨hall, rfl, rfl⟩
    · rw [(hfirst x).1 hx]
      unfold pickNames
      simp only
      rw [(dataOf_iff ..).2 hn]
    · cases hr : (recNext 20 ImportDesc.parse ImportDesc.isNull ⟨nd.drop (ia - na), false⟩).1 with
      | panic => exact absurd hr (recNext_no_panic _ _ _ _)
      | err => rfl
      | ok o =>
        cases o with
        | none => rfl
        | some x =>
          unfold pickNames
          simp only
          cases hn : dataContaining ss data x.name with
          | none => rfl
          | some q => exact absurd ((dataOf_iff ..).1 hn) (hall x q.1 q.2 ((hfirst x).2 hr))

theorem fromSections_no_panic (data : List UInt8) (ss : List Coff.Section) (a : Nat) (ha : a < 2 ^ 32) :
    ImportTable.fromSections data ss a ≠ .panic := by
  cases hc : dataContaining ss data a with
  | none => rw [fromSections_none hc]; simp
  | some p =>
    rw [fromSections_some ha hc]
    cases hr : (recNext 20 ImportDesc.parse ImportDesc.isNull ⟨p.1.drop (a - p.2), false⟩).1 with
    | panic => exact absurd hr (recNext_no_panic _ _ _ _)
    | err => unfold pickNames; simp
    | ok o =>
      unfold pickNames
      cases o with
      | none => simp
      | some x =>
        simp only
        split <;> simp

theorem fromSections_err (data : List UInt8) (ss : List Coff.Section) (a : Nat) (ha : a < 2 ^ 32) :
    ImportTable.fromSections data ss a = .err ↔ ∀ x va, ¬ DataOf ss data a x va := by
  cases hc : dataContaining ss data a with
  | none =>
    rw [fromSections_none hc]
    simp only [true_iff]
    intro x va h
    rw [← dataOf_iff, hc] at h
    simp at h
  | some p =>
    constructor
    · intro h
      exfalso
      rw [fromSections_some ha hc] at h
      cases hr : (recNext 20 ImportDesc.parse ImportDesc.isNull ⟨p.1.drop (a - p.2), false⟩).1 with
      | panic => exact absurd hr (recNext_no_panic _ _ _ _)
      | err => rw [hr] at h; unfold pickNames at h; simp at h
      | ok o =>
        rw [hr] at h
        unfold pickNames at h
        cases o with
        | none => simp at h
        | some x =>
          simp only at h
          split at h <;> simp at h
    · intro h
      exact absurd ((dataOf_iff ..).1 hc) (h p.1 p.2)

/-! ### The tables of a file -/

/-- Addresses in headers have 32 bits. -/
def AddrFits (dirs : List DataDir) (ss : List Coff.Section) : Prop :=
  (∀ d ∈ dirs, d.virtualAddress < 2 ^ 32) ∧ ∀ s ∈ ss, s.virtualAddress < 2 ^ 32

theorem importTable_iff (dirs : List DataDir) (data : List UInt8) (ss : List Coff.Section) (hd : ∀ d ∈ dirs, d.virtualAddress < 2 ^ 32)
    (o : Option ImportTable) : importTable dirs data ss = .ok o ↔ TableIn dirs 1 (ImportTableOf ss data) o := by
  unfold importTable
  cases hg : getDir dirs 1 with
  | none =>
    simp only [Res.ok.injEq]
    have hz : ∀ d, dirs[1]? = some d → d.virtualAddress = 0 := by
      intro d h
      rcases Nat.eq_zero_or_pos d.virtualAddress with h0 | h0
      · exact h0
      · rw [(getDir_iff ..).2 ⟨h, by omega⟩] at hg; simp at hg
    constructor
    · rintro rfl; exact hz
    · intro h
      cases o with
      | none => rfl
      | some t => obtain ⟨d, h1, h2, -⟩ := h; exact absurd (hz d h1) h2
  | some d =>
    obtain ⟨h1, h2⟩ := (getDir_iff ..).1 hg
    have ha := hd d (List.mem_of_getElem? h1)
    simp only
    constructor
    · intro h
      cases hf : ImportTable.fromSections data ss d.virtualAddress with
      | err => rw [hf] at h; simp at h
      | panic => rw [hf] at h; simp at h
      | ok t =>
        rw [hf, Res.ok_bind, Res.ok.injEq] at h
        rw [← h]
        exact ⟨d, h1, h2, (fromSections_iff _ _ _ ha _).1 hf⟩
    · intro h
      cases o with
      | none => exact absurd (h d h1) h2
      | some t =>
        obtain ⟨d', h3, -, h4⟩ := h
        rw [h1] at h3
        obtain rfl := Option.some.inj h3
        rw [(fromSections_iff _ _ _ ha _).2 h4, Res.ok_bind]

theorem importTable_err (dirs : List DataDir) (data : List UInt8) (ss : List Coff.Section) (hd : ∀ d ∈ dirs, d.virtualAddress < 2 ^ 32) :
    (importTable dirs data ss = .err ↔ BadDir dirs 1 ss data) ∧ importTable dirs data ss ≠ .panic := by
  unfold importTable BadDir
  cases hg : getDir dirs 1 with
  | none =>
    refine ⟨⟨fun h => by simp at h, ?_⟩, by simp⟩
    rintro ⟨d, h1, h2, -⟩
    rw [(getDir_iff ..).2 ⟨h1, h2⟩] at hg
    simp at hg
  | some d =>
    obtain ⟨h1, h2⟩ := (getDir_iff ..).1 hg
    have ha := hd d (List.mem_of_getElem? h1)
    simp only
    refine ⟨?_, Res.bind_no_panic (fromSections_no_panic _ _ _ ha) fun _ _ => by simp⟩
    have hb : (ImportTable.fromSections data ss d.virtualAddress).bind (fun t => .ok (some t)) = .err ↔
        ImportTable.fromSections data ss d.virtualAddress = .err := by
      cases ImportTable.fromSections data ss d.virtualAddress <;> simp
    rw [hb, fromSections_err _ _ _ ha]
    constructor
    · intro h; exact ⟨d, h1, h2, h⟩
    · rintro ⟨d', h3, -, h4⟩
      rw [h1] at h3
      obtain rfl := Option.some.inj h3
      exact h4

theorem delayTable_iff (dirs : List DataDir) (data : List UInt8) (ss : List Coff.Section) (o : Option DelayTable) :
    delayTable dirs data ss = .ok o ↔ TableIn dirs 13 (DelayTableOf ss data) o := by
  unfold delayTable
  cases hg : getDir dirs 13 with
  | none =>
    simp only [Res.ok.injEq]
    have hz : ∀ d, dirs[13]? = some d → d.virtualAddress = 0 := by
      intro d h
      rcases Nat.eq_zero_or_pos d.virtualAddress with h0 | h0
      · exact h0
      · rw [(getDir_iff ..).2 ⟨h, by omega⟩] at hg; simp at hg
    constructor
    · rintro rfl; exact hz
    · intro h
      cases o with
      | none => rfl
      | some t => obtain ⟨d, h1, h2, -⟩ := h; exact absurd (hz d h1) h2
  | some d =>
    obtain ⟨h1, h2⟩ := (getDir_iff ..).1 hg
    simp only
    cases hc : dataContaining ss data d.virtualAddress with
    | none =>
      simp only [reduceCtorEq, false_iff]
      intro h
      cases o with
      | none => exact absurd (h d h1) h2
      | some t =>
        obtain ⟨d', h3, -, -, h5⟩ := h
        rw [h1] at h3
        obtain rfl := Option.some.inj h3
        rw [← dataOf_iff, hc] at h5
        simp at h5
    | some p =>
      simp only [Res.ok.injEq]
      constructor
      · rintro rfl
        exact ⟨d, h1, h2, rfl, (dataOf_iff ..).1 hc⟩
      · intro h
        cases o with
        | none => exact absurd (h d h1) h2
        | some t =>
          obtain ⟨d', h3, -, h4, h5⟩ := h
          rw [h1] at h3
          obtain rfl := Option.some.inj h3
          rw [← dataOf_iff, hc] at h5
          obtain ⟨a, b, c⟩ := t
          simp only [Option.some.injEq] at h4 h5
          subst h5 h4
          rfl

theorem delayTable_err (dirs : List DataDir) (data : List UInt8) (ss : List Coff.Section) :
    (delayTable dirs data ss = .err ↔ BadDir dirs 13 ss data) ∧ delayTable dirs data ss ≠ .panic := by
  unfold delayTable BadDir
  cases hg : getDir dirs 13 with
  | none =>
    refine ⟨⟨fun h => by simp at h, ?_⟩, by simp⟩
    rintro ⟨d, h1, h2, -⟩
    rw [(getDir_iff ..).2 ⟨h1, h2⟩] at hg
    simp at hg
  | some d =>
    obtain ⟨h1, h2⟩ := (getDir_iff ..).1 hg
    simp only
    cases hc : dataContaining ss data d.virtualAddress with
    | none =>
      refine ⟨⟨fun _ => ⟨d, h1, h2, fun x va h => ?_⟩, fun _ => rfl⟩, by simp⟩
      rw [← dataOf_iff, hc] at h
      simp at h
    | some p =>
      refine ⟨⟨fun h => by simp at h, ?_⟩, by simp⟩
      rintro ⟨d', h3, -, h4⟩
      rw [h1] at h3
      obtain rfl := Option.some.inj h3
      exact absurd ((dataOf_iff ..).1 hc) (h4 p.1 p.2)

/-- The descriptors of a table found in a file. -/
theorem importDescs_ok {ss : List Coff.Section} {data : List UInt8} {a : Nat} (ha : a < 2 ^ 32) {t : ImportTable}
    (h : ImportTableOf ss data a t) : ∃ d, t.descriptors = .ok d := by
  obtain ⟨h0, hD, -⟩ := h
  obtain ⟨h1, h2, -⟩ := dataOf_fits hD
  subst h0
  exact ⟨_, descriptors_of ha h1 h2⟩

theorem delayDescs_ok {ss : List Coff.Section} {data : List UInt8} {a : Nat} (ha : a < 2 ^ 32) {t : DelayTable}
    (h : DelayTableOf ss data a t) : ∃ d, t.descriptors = .ok d := by
  obtain ⟨h0, hD⟩ := h
  obtain ⟨h1, h2, -⟩ := dataOf_fits hD
  subst h0
  exact ⟨_, descriptors_of ha h1 h2⟩

theorem tableFits {ss : List Coff.Section} {data : List UInt8} {a : Nat} (ha : a < 2 ^ 32) (hs : ∀ s ∈ ss, s.virtualAddress < 2 ^ 32)
    {t : ImportTable} (h : ImportTableOf ss data a t) : TableFits t := by
  obtain ⟨h0, hD, hN⟩ := h
  obtain ⟨-, -, s, h3, h4⟩ := dataOf_fits hD
  refine ⟨by rw [h4]; exact hs s h3, ?_, by rw [h0]; exact ha⟩
  rcases hN with ⟨d, -, hn⟩ | ⟨-, -, h5⟩
  · obtain ⟨-, -, s', h3', h4'⟩ := dataOf_fits hn
    rw [h4']; exact hs s' h3'
  · rw [h5, h4]; exact hs s h3

theorem delayFits {ss : List Coff.Section} {data : List UInt8} {a : Nat} (ha : a < 2 ^ 32) (hs : ∀ s ∈ ss, s.virtualAddress < 2 ^ 32)
    {t : DelayTable} (h : DelayTableOf ss data a t) : DelayFits t := by
  obtain ⟨h0, hD⟩ := h
  obtain ⟨-, -, s, h3, h4⟩ := dataOf_fits hD
  exact ⟨by rw [h4]; exact hs s h3, by rw [h0]; exact ha⟩

theorem optDescs_import {dirs : List DataDir} {ss : List Coff.Section} {data : List UInt8} (hf : AddrFits dirs ss) {o : Option ImportTable}
    (h : TableIn dirs 1 (ImportTableOf ss data) o) :
    (∀ t, o = some t → TableFits t) ∧ ∃ d, optDescs ImportTable.descriptors o = .ok d := by
  cases o with
  | none => exact ⟨fun _ h => by simp at h, none, rfl⟩
  | some t =>
    obtain ⟨d, h1, -, h2⟩ := h
    have ha := hf.1 d (List.mem_of_getElem? h1)
    refine ⟨fun t' h' => by rw [← Option.some.inj h']; exact tableFits ha hf.2 h2, ?_⟩
    obtain ⟨x, hx⟩ := importDescs_ok ha h2
    refine ⟨some x, ?_⟩
    show (t.descriptors.bind fun d => .ok (some d)) = _
    rw [hx, Res.ok_bind]

theorem optDescs_delay {dirs : List DataDir} {ss : List Coff.Section} {data : List UInt8} (hf : AddrFits dirs ss) {o : Option DelayTable}
    (h : TableIn dirs 13 (DelayTableOf ss data) o) :
    (∀ t, o = some t → DelayFits t) ∧ ∃ d, optDescs DelayTable.descriptors o = .ok d := by
  cases o with
  | none => exact ⟨fun _ h => by simp at h, none, rfl⟩
  | some t =>
    obtain ⟨d, h1, -, h2⟩ := h
    have ha := hf.1 d (List.mem_of_getElem? h1)
    refine ⟨fun t' h' => by rw [← Option.some.inj h']; exact delayFits ha hf.2 h2, ?_⟩
    obtain ⟨x, hx⟩ := delayDescs_ok ha h2
    refine ⟨some x, ?_⟩
    show (t.descriptors.bind fun d => .ok (some d)) = _
    rw [hx, Res.ok_bind]

/-- The common start of the two iterators. -/
theorem start {β : Type} (dirs : List DataDir) (data : List UInt8) (ss : List Coff.Section) (hf : AddrFits dirs ss)
    (k : Option ImportTable → Option RecIter → Option DelayTable → Option RecIter → β)
    (f : Res β) (hk : f = (importTable dirs data ss).bind fun table => (optDescs ImportTable.descriptors table).bind fun descs =>
      (delayTable dirs data ss).bind fun delay => (optDescs DelayTable.descriptors delay).bind fun dd => .ok (k table descs delay dd)) :
    (∀ it, f = .ok it → ∃ o1 d1 o2 d2, TableIn dirs 1 (ImportTableOf ss data) o1 ∧ optDescs ImportTable.descriptors o1 = .ok d1 ∧
      TableIn dirs 13 (DelayTableOf ss data) o2 ∧ optDescs DelayTable.descriptors o2 = .ok d2 ∧ it = k o1 d1 o2 d2) ∧
    (f = .err ↔ BadDir dirs 1 ss data ∨ BadDir dirs 13 ss data) ∧ f ≠ .panic := by
  obtain ⟨he1, hn1⟩ := importTable_err dirs data ss hf.1
  obtain ⟨he2, hn2⟩ := delayTable_err dirs data ss
  cases h1 : importTable dirs data ss with
  | panic => exact absurd h1 hn1
  | err =>
    rw [h1, Res.err_bind] at hk
    rw [hk]
    exact ⟨fun _ h => by simp at h, ⟨fun _ => .inl (he1.1 h1), fun _ => rfl⟩, by simp⟩
  | ok o1 =>
    have i1 := (importTable_iff _ _ _ hf.1 _).1 h1
    obtain ⟨-, d1, hd1⟩ := optDescs_import hf i1
    rw [h1, Res.ok_bind, hd1, Res.ok_bind] at hk
    have nb1 : ¬ BadDir dirs 1 ss data := fun h => by rw [he1.2 h] at h1; simp at h1
    cases h2 : delayTable dirs data ss with
    | panic => exact absurd h2 hn2
    | err =>
      rw [h2, Res.err_bind] at hk
      rw [hk]
      exact ⟨fun _ h => by simp at h, ⟨fun _ => .inr (he2.1 h2), fun _ => rfl⟩, by simp⟩
    | ok o2 =>
      have i2 := (delayTable_iff _ _ _ _).1 h2
      obtain ⟨-, d2, hd2⟩ := optDescs_delay hf i2
      rw [h2, Res.ok_bind, hd2, Res.ok_bind] at hk
      have nb2 : ¬ BadDir dirs 13 ss data := fun h => by rw [he2.2 h] at h2; simp at h2
      rw [hk]
      refine ⟨fun it h => ⟨o1, d1, o2, d2, i1, hd1, i2, hd2, (Res.ok.inj h).symm⟩, ?_, by simp⟩
      simp [nb1, nb2]

theorem imp_drains {w : Nat} (hw : w = 4 ∨ w = 8) {o1 : Option ImportTable} {o2 : Option DelayTable} {d1 d2 : Option RecIter}
    (f1 : ∀ t, o1 = some t → TableFits t) (f2 : ∀ t, o2 = some t → DelayFits t)
    (h1 : optDescs ImportTable.descriptors o1 = .ok d1) (h2 : optDescs DelayTable.descriptors o2 = .ok d2) :
    ∃ rs1 rs2, Opt (Imports w) o1 rs1 ∧ Opt (DelayImports w) o2 rs2 ∧ Drains ImpIter.next ⟨w, o1, d1, o2, d2, none, []⟩ (rs1 ++ rs2) := by
  obtain ⟨ys, hy, hyd⟩ := second_drain hw o2 f2 d2 h2
  cases o1 with
  | none => exact ⟨[], ys, rfl, hy, hyd d1 []⟩
  | some t =>
    have hd : (t.descriptors.bind fun d => .ok (some d)) = .ok d1 := h1
    cases hr : t.descriptors with
    | err => rw [hr] at hd; simp at hd
    | panic => rw [hr] at hd; simp at hd
    | ok d =>
      rw [hr, Res.ok_bind, Res.ok.injEq] at hd
      subst hd
      obtain ⟨g1, g2, g3⟩ := f1 t rfl
      obtain ⟨rs, h3, h4⟩ := imports_drain hw (import_uses w t o2 d2 ys hyd) g1 g2 g3 hr
      exact ⟨rs, ys, h3, hy, h4⟩

/-! ### Libraries -/

theorem lib_next_none {it : LibIter} (h : it.table = none) : it.next = it.nextDelay := by
  unfold LibIter.next
  rw [h]

theorem libName_exists {data : List UInt8} {va a : Nat} (ha : a < 2 ^ 32) (hva : va < 2 ^ 32) (delay : Bool) :
    LibName data va a delay [(Bytes.readStringAt data (wsub a va)).bind fun n => .ok ⟨n, delay⟩] := by
  have hN := nameAt_iff data va a ha hva
  cases hs : Bytes.readStringAt data (wsub a va) with
  | panic => exact absurd hs (readStringAt_no_panic _ _)
  | err =>
    refine .inr ⟨fun n hc => ?_, rfl⟩
    rw [(hN n).2 hc] at hs; simp at hs
  | ok n => exact .inl ⟨n, (hN n).1 hs, rfl⟩

theorem libName_res {data : List UInt8} {va a : Nat} {delay : Bool} (r : Res GLibrary)
    (hr : r = (Bytes.readStringAt data (wsub a va)).bind fun n => .ok ⟨n, delay⟩) : r ≠ .panic := by
  rw [hr]
  exact Res.bind_no_panic (readStringAt_no_panic _ _) fun _ _ => by simp

/-- One list of descriptors. -/
theorem drain_libs {α : Type} {size : Nat} {parse : List UInt8 → α} {isNull : α → Bool} {N : α → Prop}
    (hN : ∀ x, isNull x = true ↔ N x) {f : α → Res GLibrary} (hnp : ∀ x, f x ≠ .panic) {embed : RecIter → LibIter}
    {ys : List (Res GLibrary)} {P : α → List (Res GLibrary) → Prop} (hP : ∀ i : List UInt8, i.length = size → P (parse i) [f (parse i)])
    (hi : ∀ d x d', recNext size parse isNull d = (.ok (some x), d') →
      LibIter.next (embed d) = ((f x).bind fun y => .ok (some y), embed d'))
    (he : ∀ d d', recNext size parse isNull d = (.err, d') → LibIter.next (embed d) = (.err, embed d'))
    (hn : ∀ d d', recNext size parse isNull d = (.ok none, d') → Drains LibIter.next (embed d) ys)
    {d : List UInt8} {ds : List α} {e : End} (h : NullTerm size parse N d ds e) :
    ∃ rs, Each P ds e rs ∧ Drains LibIter.next (embed ⟨d, false⟩) (rs ++ ys) := by
  induction h with
  | @null i tl hl hnl => exact ⟨[], ⟨[], rfl, by simp, rfl⟩, hn _ _ (recNext_null hl ((hN _).2 hnl))⟩
  | @missing dd hl =>
    exact ⟨[.err], ⟨[], rfl, by simp, rfl⟩, .err (he _ _ (recNext_missing hl)) (hn _ _ (recNext_end _ _ _ _))⟩
  | @item i tl xs e hl hnn _ ih =>
    obtain ⟨rs, ⟨rss, h1, h2, h3⟩, h4⟩ := ih
    have hnx : recNext size parse isNull ⟨i ++ tl, false⟩ = (.ok (some (parse i)), ⟨tl, false⟩) := by
      refine recNext_item hl ?_
      cases hc : isNull (parse i) with
      | false => rfl
      | true => exact absurd ((hN _).1 hc) hnn
    refine ⟨f (parse i) :: rs, ⟨[f (parse i)] :: rss, by simp [h1], ?_, by rw [h3]; simp⟩, Drains.step (hnp _) (hi _ _ _ hnx) h4⟩
    intro j x r hx hr
    cases j with
    | zero =>
      simp only [List.getElem?_cons_zero, Option.some.injEq] at hx hr
      rw [← hx, ← hr]; exact hP i hl
    | succ j =>
      rw [List.getElem?_cons_succ] at hx hr
      exact h2 j x r hx hr

theorem lib_second {o2 : Option DelayTable} {d2 : Option RecIter} (f2 : ∀ t, o2 = some t → DelayFits t)
    (h2 : optDescs DelayTable.descriptors o2 = .ok d2) (ds : Option RecIter) :
    ∃ rs2, Opt DelayLibraries o2 rs2 ∧ Drains LibIter.next ⟨none, ds, o2, d2⟩ rs2 := by
  cases o2 with
  | none => exact ⟨[], rfl, .done (s' := ⟨none, ds, none, d2⟩) rfl⟩
  | some t =>
    have hd : (t.descriptors.bind fun d => .ok (some d)) = .ok d2 := h2
    cases hr : t.descriptors with
    | err => rw [hr] at hd; simp at hd
    | panic => rw [hr] at hd; simp at hd
    | ok d =>
      rw [hr, Res.ok_bind, Res.ok.injEq] at hd
      subst hd
      obtain ⟨g1, g3⟩ := f2 t rfl
      obtain ⟨off, ho, hl, rfl⟩ := (recsAt_iff g3 g1 d).1 hr
      obtain ⟨xs, e, hds⟩ := nullTerm_exists (size := 32) (by decide) DelayDesc.parse (fun d => d = ⟨0, 0, 0, 0, 0, 0, 0, 0⟩)
        (t.sectionData.drop off)
      have key : ∀ d, LibIter.next ⟨none, ds, some t, some d⟩ = LibIter.nextDelay ⟨none, ds, some t, some d⟩ :=
        fun d => lib_next_none rfl
      have ha : ∀ i, (DelayDesc.parse i).attributes &&& 1 = (DelayDesc.parse i).attributes % 2 :=
        fun i => Nat.and_two_pow_sub_one_eq_mod _ 1
      have := drain_libs (embed := fun d => ⟨none, ds, some t, some d⟩) (ys := []) delayDesc_null
        (f := fun x => (t.descName x).bind fun n => .ok ⟨n, true⟩)
        (P := fun d rs => if d.attributes % 2 = 0 then rs = [.err] else LibName t.sectionData t.sectionAddress d.dllNameRva true rs)
        ?_ ?_ ?_ ?_ ?_ hds
      · obtain ⟨rs, hrs, hdr⟩ := this
        rw [List.append_nil] at hdr
        exact ⟨rs, ⟨off, xs, e, ho, hl, hds, hrs⟩, hdr⟩
      · intro x
        refine Res.bind_no_panic ?_ fun _ _ => by simp
        unfold DelayTable.descName
        split
        · simp
        · exact readStringAt_no_panic _ _
      · intro i hi
        unfold DelayTable.descName
        rw [ha]
        by_cases hz : (DelayDesc.parse i).attributes % 2 = 0
        · rw [if_pos hz, if_pos hz]; rfl
        · rw [if_neg hz, if_neg hz]
          exact libName_exists (field_lt .little i 4 4) g1 true
      · intro d x d' h
        rw [key]
        unfold LibIter.nextDelay
        simp only
        rw [h]
        simp only
        rw [bind_assoc']
        rfl
      · intro d d' h
        rw [key]
        unfold LibIter.nextDelay
        simp only
        rw [h]
      · intro d d' h
        refine .done (s' := ⟨none, ds, none, none⟩) ?_
        rw [key]
        unfold LibIter.nextDelay
        simp only
        rw [h]

theorem lib_descs {it : LibIter} {rs : List (Res GLibrary)} (hd : Drains LibIter.next it rs) (h : it.table = none)
    (ds : Option RecIter) : Drains LibIter.next { it with descs := ds } rs := by
  have key : ∀ (it : LibIter) r s', it.table = none → it.next = (r, s') →
      LibIter.next { it with descs := ds } = (r, { s' with descs := ds }) ∧ s'.table = none := by
    intro it r s' h hn
    rw [lib_next_none h] at hn
    rw [lib_next_none (it := { it with descs := ds }) h]
    obtain ⟨tb, d0, dt, dd⟩ := it
    simp only at h
    subst h
    unfold LibIter.nextDelay at hn ⊢
    cases dt with
    | none => cases hn; exact ⟨rfl, rfl⟩
    | some t =>
      cases dd with
      | none => cases hn; exact ⟨rfl, rfl⟩
      | some d =>
        simp only at hn ⊢
        cases hr : recNext 32 DelayDesc.parse DelayDesc.isNull d with
        | mk r d' =>
          rw [hr] at hn
          cases r with
          | err => cases hn; exact ⟨rfl, rfl⟩
          | panic => cases hn; exact ⟨rfl, rfl⟩
          | ok o => cases o <;> cases hn <;> exact ⟨rfl, rfl⟩
  induction hd with
  | done hn => exact .done (key _ _ _ h hn).1
  | item hn _ ih => exact .item (key _ _ _ h hn).1 (ih (key _ _ _ h hn).2)
  | err hn _ ih => exact .err (key _ _ _ h hn).1 (ih (key _ _ _ h hn).2)
  | panic hn => exact .panic (key _ _ _ h hn).1

theorem lib_drains {o1 : Option ImportTable} {o2 : Option DelayTable} {d1 d2 : Option RecIter}
    (f1 : ∀ t, o1 = some t → TableFits t) (f2 : ∀ t, o2 = some t → DelayFits t)
    (h1 : optDescs ImportTable.descriptors o1 = .ok d1) (h2 : optDescs DelayTable.descriptors o2 = .ok d2) :
    ∃ rs1 rs2, Opt Libraries o1 rs1 ∧ Opt DelayLibraries o2 rs2 ∧ Drains LibIter.next ⟨o1, d1, o2, d2⟩ (rs1 ++ rs2) := by
  cases o1 with
  | none =>
    obtain ⟨ys, hy, hyd⟩ := lib_second f2 h2 d1
    exact ⟨[], ys, rfl, hy, hyd⟩
  | some t =>
    obtain ⟨ys, hy, hyd⟩ := lib_second f2 h2 none
    have hd : (t.descriptors.bind fun d => .ok (some d)) = .ok d1 := h1
    cases hr : t.descriptors with
    | err => rw [hr] at hd; simp at hd
    | panic => rw [hr] at hd; simp at hd
    | ok d =>
      rw [hr, Res.ok_bind, Res.ok.injEq] at hd
      subst hd
      obtain ⟨g1, g2, g3⟩ := f1 t rfl
      obtain ⟨off, ho, hl, rfl⟩ := (recsAt_iff g3 g1 d).1 hr
      obtain ⟨xs, e, hds⟩ := nullTerm_exists (size := 20) (by decide) ImportDesc.parse (fun d => d = ⟨0, 0, 0, 0, 0⟩)
        (t.sectionData.drop off)
      have := drain_libs (embed := fun d => ⟨some t, some d, o2, d2⟩) (ys := ys) importDesc_null
        (f := fun x => (t.name x.name).bind fun n => .ok ⟨n, false⟩)
        (P := fun d => LibName t.nameData t.nameAddress d.name false)
        ?_ ?_ ?_ ?_ ?_ hds
      · obtain ⟨rs, hrs, hdr⟩ := this
        exact ⟨rs, ys, ⟨off, xs, e, ho, hl, hds, hrs⟩, hy, hdr⟩
      · intro x
        exact Res.bind_no_panic (readStringAt_no_panic _ _) fun _ _ => by simp
      · intro i hi
        exact libName_exists (field_lt .little i 12 4) g2 false
      · intro d x d' h
        unfold LibIter.next
        simp only
        rw [h]
        simp only
        rw [bind_assoc']
        rfl
      · intro d d' h
        unfold LibIter.next
        simp only
        rw [h]
      · intro d d' h
        refine Drains.congr ?_ hyd
        rw [lib_next_none (it := ⟨none, none, o2, d2⟩) rfl]
        unfold LibIter.next
        simp only
        rw [h]

end Obj.Pe
