import Verif.Spec.PeImport
import Verif.Proof.Pe

namespace Obj.Pe
open Obj Obj.Spec.Pe

/-! ### Records -/

theorem recNext_null {α : Type} {size : Nat} {parse : List UInt8 → α} {isNull : α → Bool} {i tl : List UInt8} (hi : i.length = size)
    (hn : isNull (parse i) = true) : recNext size parse isNull ⟨i ++ tl, false⟩ = (.ok none, ⟨tl, true⟩) := by
  unfold recNext Bytes.read
  rw [if_neg (by simp), ← hi, readBytes_append]
  simp only
  rw [if_pos hn]

theorem recNext_item {α : Type} {size : Nat} {parse : List UInt8 → α} {isNull : α → Bool} {i tl : List UInt8} (hi : i.length = size)
    (hn : isNull (parse i) = false) : recNext size parse isNull ⟨i ++ tl, false⟩ = (.ok (some (parse i)), ⟨tl, false⟩) := by
  unfold recNext Bytes.read
  rw [if_neg (by simp), ← hi, readBytes_append]
  simp only
  rw [if_neg (by simp [hn])]

theorem recNext_missing {α : Type} {size : Nat} {parse : List UInt8 → α} {isNull : α → Bool} {d : List UInt8} (h : d.length < size) :
    recNext size parse isNull ⟨d, false⟩ = (.err, ⟨[], true⟩) := by
  unfold recNext Bytes.read Bytes.readBytes
  rw [if_neg (by simp), if_neg (by show ¬ size ≤ d.length; omega)]

theorem recNext_end {α : Type} (size : Nat) (parse : List UInt8 → α) (isNull : α → Bool) (d : List UInt8) :
    recNext size parse isNull ⟨d, true⟩ = (.ok none, ⟨d, true⟩) := by
  unfold recNext
  rw [if_pos rfl]

theorem recNext_consumes {α : Type} {size : Nat} {parse : List UInt8 → α} {isNull : α → Bool} (hs : 0 < size) {d d' : RecIter} {x : α}
    (h : recNext size parse isNull d = (.ok (some x), d')) : d'.data.length < d.data.length := by
  unfold recNext Bytes.read Bytes.readBytes at h
  split at h
  · simp at h
  · by_cases hl : size ≤ d.data.length
    · rw [if_pos hl] at h
      simp only at h
      split at h
      · simp at h
      · simp only [Prod.mk.injEq] at h
        rw [← h.2]
        simp only [List.length_drop]
        omega
    · rw [if_neg hl] at h
      simp at h

theorem nullTerm_exists {α : Type} {size : Nat} (hs : 0 < size) (parse : List UInt8 → α) (isNull : α → Prop) (d : List UInt8) :
    ∃ xs e, NullTerm size parse isNull d xs e := by
  generalize hn : d.length = n
  induction n using Nat.strongRecOn generalizing d with
  | _ n ih =>
    rcases Nat.lt_or_ge d.length size with h | h
    · exact ⟨[], .err, .missing h⟩
    · have hd : d = d.take size ++ d.drop size := (List.take_append_drop _ _).symm
      have hl : (d.take size).length = size := by simp; omega
      by_cases hc : isNull (parse (d.take size))
      · refine ⟨[], .done, ?_⟩
        rw [hd]
        exact .null hl hc
      · obtain ⟨xs, e, hx⟩ := ih (d.drop size).length (by rw [List.length_drop]; omega) (d.drop size) rfl
        refine ⟨parse (d.take size) :: xs, e, ?_⟩
        have := NullTerm.item (parse := parse) hl hc hx
        rwa [← hd] at this

theorem nullTerm_end {α : Type} {size : Nat} {parse : List UInt8 → α} {isNull : α → Prop} {d : List UInt8} {xs : List α} {e : End}
    (h : NullTerm size parse isNull d xs e) : e = .done ∨ e = .err := by
  induction h with
  | null => exact .inl rfl
  | missing => exact .inr rfl
  | item _ _ _ ih => exact ih

/-- The iterators yield exactly the records. -/
theorem recNext_runs {α : Type} {size : Nat} {parse : List UInt8 → α} {isNull : α → Bool} {P : α → Prop}
    (hP : ∀ x, isNull x = true ↔ P x) {d : List UInt8} {xs : List α} {e : End} (h : NullTerm size parse P d xs e) :
    Runs (recNext size parse isNull) ⟨d, false⟩ xs e := by
  induction h with
  | null hi hn => exact .done (recNext_null hi ((hP _).2 hn))
  | missing h => exact .err (recNext_missing h)
  | item hi hn _ ih =>
    refine .item (recNext_item hi ?_) ih
    cases hc : isNull (parse _) with
    | false => rfl
    | true => exact absurd ((hP _).1 hc) hn

theorem importDesc_null (d : ImportDesc) : d.isNull = true ↔ d = ⟨0, 0, 0, 0, 0⟩ := by
  obtain ⟨a, b, c, d, e⟩ := d
  simp [ImportDesc.isNull]
  omega

theorem delayDesc_null (d : DelayDesc) : d.isNull = true ↔ d = ⟨0, 0, 0, 0, 0, 0, 0, 0⟩ := by
  obtain ⟨a, b, c, d, e, f, g, h⟩ := d
  simp [DelayDesc.isNull]
  omega

theorem importDescs_parse {d : List UInt8} {ds : List ImportDesc} {e : End} (h : ImportDescs d ds e) :
    NullTerm 20 ImportDesc.parse (fun d => d = ⟨0, 0, 0, 0, 0⟩) d ds e := h

theorem delayDescs_parse {d : List UInt8} {ds : List DelayDesc} {e : End} (h : DelayDescs d ds e) :
    NullTerm 32 DelayDesc.parse (fun d => d = ⟨0, 0, 0, 0, 0, 0, 0, 0⟩) d ds e := h

/-! ### Thunks -/

theorem thunkAddress_eq (v : Nat) : thunkAddress v = v % 2 ^ 31 := by
  unfold thunkAddress
  rw [show (0x7fffffff : Nat) = 2 ^ 31 - 1 by decide, Nat.and_two_pow_sub_one_eq_mod]
  omega

theorem and_bit_ne (v k : Nat) (h : v < 2 ^ (k + 1)) : (v &&& 2 ^ k ≠ 0) ↔ 2 ^ k ≤ v := by
  rw [and_two_pow_ne, Nat.testBit_eq_decide_div_mod_eq, decide_eq_true_eq]
  have hk : 0 < 2 ^ k := Nat.two_pow_pos k
  rw [Nat.pow_succ] at h
  rcases Nat.lt_or_ge v (2 ^ k) with hlt | hge
  · rw [Nat.div_eq_of_lt hlt]; simp; omega
  · have : v / 2 ^ k = 1 := by
      rw [Nat.div_eq_iff hk]
      omega
    rw [this]
    simp [hge]

theorem thunkIsOrdinal_eq (w v : Nat) (hw : w = 4 ∨ w = 8) (hv : v < 256 ^ w) : thunkIsOrdinal w v = true ↔ 2 ^ (8 * w - 1) ≤ v := by
  unfold thunkIsOrdinal
  rcases hw with rfl | rfl
  · rw [if_neg (by decide), decide_eq_true_eq]
    exact and_bit_ne v 31 hv
  · rw [if_pos rfl, decide_eq_true_eq]
    exact and_bit_ne v 63 hv

theorem hintName_iff (data : List UInt8) (va a : Nat) (ha : a < 2 ^ 32) (hva : va < 2 ^ 32) (h : Nat) (s : List UInt8) :
    hintName data va a = .ok (h, s) ↔ HintNameAt data va a h s := by
  unfold hintName HintNameAt
  have hr := fun off => wsub_iff ha hva off
  have key : (∃ off, Rva va a off ∧ off + 2 ≤ data.length ∧ h = rd .little (slice data off 2) ∧ CStrAt data (off + 2) s ∧ s ≠ []) ↔
      wsub a va + 2 ≤ data.length ∧ h = rd .little (slice data (wsub a va) 2) ∧ CStrAt data (wsub a va + 2) s ∧ s ≠ [] := by
    constructor
    · rintro ⟨off, h1, h2⟩; rw [(hr off).1 h1] at h2; exact h2
    · intro h2; exact ⟨_, (hr _).2 rfl, h2⟩
  rw [key]
  generalize wsub a va = off
  unfold Bytes.skip
  by_cases h1 : off ≤ data.length
  · rw [if_pos h1]
    simp only [Bytes.read, Bytes.readBytes]
    by_cases h2 : 2 ≤ (data.drop off).length
    · rw [if_pos h2]
      simp only
      rw [List.length_drop] at h2
      have hs := readStringAt_iff data (off + 2) s
      unfold Bytes.readStringAt Bytes.skip at hs
      rw [if_pos (by omega)] at hs
      simp only at hs
      rw [List.drop_drop, ← hs]
      cases hx : (Bytes.readString (data.drop (off + 2))).1 with
      | err => simp
      | panic => simp
      | ok s' =>
        simp only
        by_cases he : s' = []
        · rw [if_pos he]
          simp only [reduceCtorEq, false_iff]
          rintro ⟨-, -, h3, h4⟩
          exact h4 ((Res.ok.inj h3).symm.trans he)
        · rw [if_neg he]
          simp only [Res.ok.injEq, Prod.mk.injEq]
          constructor
          · rintro ⟨rfl, rfl⟩; exact ⟨by omega, rfl, rfl, he⟩
          · rintro ⟨-, h3, h4, -⟩; exact ⟨h3.symm, h4⟩
    · rw [if_neg h2]
      rw [List.length_drop] at h2
      simp only [reduceCtorEq, false_iff]
      rintro ⟨h3, -⟩
      omega
  · rw [if_neg h1]
    simp only [reduceCtorEq, false_iff]
    rintro ⟨h3, -⟩
    omega

theorem hintName_no_panic (data : List UInt8) (va a : Nat) : hintName data va a ≠ .panic := by
  unfold hintName Bytes.skip Bytes.read Bytes.readBytes
  generalize wsub a va = off
  by_cases h1 : off ≤ data.length
  · rw [if_pos h1]
    simp only
    by_cases h2 : 2 ≤ (data.drop off).length
    · rw [if_pos h2]
      simp only
      rcases readString_cases ((data.drop off).drop 2) with ⟨s', tl, hd, hs, he⟩ | ⟨hn, he⟩
      · rw [he]
        simp only
        split <;> simp
      · rw [he]; simp
    · rw [if_neg h2]; simp
  · rw [if_neg h1]; simp

theorem importOf_iff (w : Nat) (hw : w = 4 ∨ w = 8) (data : List UInt8) (va v : Nat) (hva : va < 2 ^ 32) (hv : v < 256 ^ w)
    (x : Import) : importOf w data va v = .ok x ↔ ImportOf w data va v x := by
  unfold importOf
  have ho := thunkIsOrdinal_eq w v hw hv
  by_cases h : thunkIsOrdinal w v = true
  · rw [if_pos h, Res.ok.injEq]
    have h' := ho.1 h
    constructor
    · rintro rfl; exact .ordinal h'
    · intro hx
      cases hx with
      | ordinal => rfl
      | name h2 => omega
  · rw [if_neg h, thunkAddress_eq]
    have h' : v < 2 ^ (8 * w - 1) := by
      rcases Nat.lt_or_ge v (2 ^ (8 * w - 1)) with h1 | h1
      · exact h1
      · exact absurd (ho.2 h1) h
    have hi := hintName_iff data va (v % 2 ^ 31) (by omega) hva
    cases hx : hintName data va (v % 2 ^ 31) with
    | panic => exact absurd hx (hintName_no_panic _ _ _)
    | err =>
      rw [Res.err_bind]
      simp only [reduceCtorEq, false_iff]
      intro hc
      cases hc with
      | ordinal h2 => omega
      | name h2 h3 => rw [(hi _ _).2 h3] at hx; simp at hx
    | ok p =>
      rw [Res.ok_bind, Res.ok.injEq]
      obtain ⟨a, b⟩ := p
      constructor
      · rintro rfl; exact .name h' ((hi _ _).1 hx)
      · intro hc
        cases hc with
        | ordinal h2 => omega
        | name h2 h3 =>
          rw [(hi _ _).2 h3] at hx
          have := Res.ok.inj hx
          rw [Prod.mk.injEq] at this
          rw [this.1, this.2]

theorem importOf_no_panic (w : Nat) (data : List UInt8) (va v : Nat) : importOf w data va v ≠ .panic := by
  unfold importOf
  split
  · simp
  · exact Res.bind_no_panic (hintName_no_panic _ _ _) fun _ _ => by simp

theorem mkImport_eq (l : List UInt8) (d : Bool) (x : Import) : mkImport l d x = unified l d x := by cases x <;> rfl

theorem thunkItem_spec (w : Nat) (hw : w = 4 ∨ w = 8) (data : List UInt8) (va v : Nat) (hva : va < 2 ^ 32) (hv : v < 256 ^ w)
    (l : List UInt8) (dl : Bool) : ThunkItem w data va l dl v ((importOf w data va v).bind fun x => .ok (mkImport l dl x)) := by
  refine ⟨Res.bind_no_panic (importOf_no_panic _ _ _ _) fun _ _ => by simp, fun x => ?_⟩
  constructor
  · intro h
    cases hx : importOf w data va v with
    | err => rw [hx] at h; simp at h
    | panic => rw [hx] at h; simp at h
    | ok i =>
      rw [hx, Res.ok_bind, Res.ok.injEq, mkImport_eq] at h
      exact ⟨i, (importOf_iff w hw data va v hva hv i).1 hx, h.symm⟩
  · rintro ⟨i, hi, rfl⟩
    rw [(importOf_iff w hw data va v hva hv i).2 hi, Res.ok_bind, mkImport_eq]

/-! ### Positions -/

theorem recsAt_ok {data : List UInt8} {va a : Nat} (ha : a < 2 ^ 32) (hva : va < 2 ^ 32) {off : Nat} (hr : Rva va a off)
    (hl : off ≤ data.length) : recsAt data va a = .ok ⟨data.drop off, false⟩ := by
  unfold recsAt Bytes.skip
  rw [← (wsub_iff ha hva off).1 hr, if_pos hl]

theorem recsAt_err {data : List UInt8} {va a : Nat} (ha : a < 2 ^ 32) (hva : va < 2 ^ 32)
    (h : ∀ off, Rva va a off → data.length < off) : recsAt data va a = .err := by
  unfold recsAt Bytes.skip
  have := h _ ((wsub_iff ha hva _).2 rfl)
  rw [if_neg (by omega)]

theorem rva_exists {va a : Nat} (ha : a < 2 ^ 32) (hva : va < 2 ^ 32) : ∃ off, Rva va a off := ⟨_, (wsub_iff ha hva _).2 rfl⟩

theorem recsAt_iff {data : List UInt8} {va a : Nat} (ha : a < 2 ^ 32) (hva : va < 2 ^ 32) (r : RecIter) :
    recsAt data va a = .ok r ↔ ∃ off, Rva va a off ∧ off ≤ data.length ∧ r = ⟨data.drop off, false⟩ := by
  obtain ⟨off, ho⟩ := rva_exists (va := va) ha hva
  have hu : ∀ off', Rva va a off' → off' = off := fun off' h' => by rw [(wsub_iff ha hva _).1 h', (wsub_iff ha hva _).1 ho]
  constructor
  · intro h
    rcases Nat.lt_or_ge data.length off with hl | hl
    · rw [recsAt_err ha hva (fun o' h' => by rw [hu o' h']; exact hl)] at h; simp at h
    · rw [recsAt_ok ha hva ho hl] at h
      exact ⟨off, ho, hl, (Res.ok.inj h).symm⟩
  · rintro ⟨off', h1, h2, rfl⟩
    exact recsAt_ok ha hva h1 h2

theorem recsAt_no_panic (data : List UInt8) (va a : Nat) : recsAt data va a ≠ .panic := by
  unfold recsAt Bytes.skip
  generalize wsub a va = off
  by_cases h : off ≤ data.length
  · rw [if_pos h]; simp
  · rw [if_neg h]; simp

theorem nameAt_iff (data : List UInt8) (va a : Nat) (ha : a < 2 ^ 32) (hva : va < 2 ^ 32) (s : List UInt8) :
    Bytes.readStringAt data (wsub a va) = .ok s ↔ NameAt data va a s := by
  rw [readStringAt_iff]
  unfold NameAt
  constructor
  · intro h; exact ⟨_, (wsub_iff ha hva _).2 rfl, h⟩
  · rintro ⟨off, h1, h2⟩; rw [← (wsub_iff ha hva _).1 h1]; exact h2

/-! ### The loop -/

/-- The part of the loop after the thunks. -/
def lrest (ops : LoopOps) (rec : LoopState → Option (Res GImport) × LoopState) (s : LoopState) : Option (Res GImport) × LoopState :=
  match s.descs with
  | none => (none, s)
  | some descs =>
    match ops.next descs with
    | (.ok (some desc), d) =>
      match ops.name desc with
      | .ok n =>
        match ops.thunks desc with
        | .ok l => rec ⟨some d, some l, n⟩
        | .err => (some .err, { s with descs := some d, library := n })
        | .panic => (some .panic, { s with descs := some d, library := n })
      | .err => (some .err, { s with descs := some d })
      | .panic => (some .panic, { s with descs := some d })
    | (.ok none, _) => (none, { s with descs := none })
    | (.err, d) => (some .err, { s with descs := some d })
    | (.panic, d) => (some .panic, { s with descs := some d })

/-- One iteration. -/
def lbody (w : Nat) (ops : LoopOps) (rec : LoopState → Option (Res GImport) × LoopState) (s : LoopState) :
    Option (Res GImport) × LoopState :=
  match s.thunks with
  | none => lrest ops rec s
  | some l =>
    match thunkNext w l with
    | (.ok (some v), l) => (some ((ops.imp v).bind fun x => .ok (mkImport s.library ops.delay x)), { s with thunks := some l })
    | (.ok none, _) => lrest ops rec { s with thunks := none }
    | (.err, l) => (some .err, { s with thunks := some l })
    | (.panic, l) => (some .panic, { s with thunks := some l })

theorem impLoop_succ (w : Nat) (ops : LoopOps) (f : Nat) (s : LoopState) : impLoop w ops (f + 1) s = lbody w ops (impLoop w ops f) s := by
  rw [impLoop]; rfl

/-- Descriptors take data. -/
def Consumes (ops : LoopOps) : Prop := ∀ d x d', ops.next d = (.ok (some x), d') → d'.data.length < d.data.length

theorem lrest_congr {ops : LoopOps} (hc : Consumes ops) {rec rec' : LoopState → Option (Res GImport) × LoopState} {s : LoopState}
    (h : ∀ t : LoopState, t.fuel < s.fuel → rec t = rec' t) : lrest ops rec s = lrest ops rec' s := by
  unfold lrest
  obtain ⟨descs, th, lib⟩ := s
  cases descs with
  | none => rfl
  | some d =>
    simp only
    rcases hn : ops.next d with ⟨r, d'⟩
    cases r with
    | err => rfl
    | panic => rfl
    | ok o =>
      cases o with
      | none => rfl
      | some x =>
        simp only
        cases ops.name x with
        | err => rfl
        | panic => rfl
        | ok n =>
          simp only
          cases ops.thunks x with
          | err => rfl
          | panic => rfl
          | ok l => exact h ⟨some d', some l, n⟩ (by have := hc _ _ _ hn; simp only [LoopState.fuel]; omega)

theorem lbody_congr {w : Nat} {ops : LoopOps} (hc : Consumes ops) {rec rec' : LoopState → Option (Res GImport) × LoopState}
    {s : LoopState} (h : ∀ t : LoopState, t.fuel < s.fuel → rec t = rec' t) : lbody w ops rec s = lbody w ops rec' s := by
  unfold lbody
  obtain ⟨descs, th, lib⟩ := s
  cases th with
  | none => exact lrest_congr hc h
  | some l =>
    simp only
    rcases thunkNext w l with ⟨r, l'⟩
    cases r with
    | err => rfl
    | panic => rfl
    | ok o => cases o with
      | some v => rfl
      | none => exact lrest_congr hc (s := ⟨descs, none, lib⟩) h

theorem fuel_pos (s : LoopState) : 0 < s.fuel := by
  unfold LoopState.fuel
  split <;> omega

theorem impLoop_fuel {w : Nat} {ops : LoopOps} (hc : Consumes ops) (f f' : Nat) (s : LoopState) (h : s.fuel ≤ f) (h' : s.fuel ≤ f') :
    impLoop w ops f s = impLoop w ops f' s := by
  have hp := fuel_pos s
  induction f generalizing f' s with
  | zero => omega
  | succ f ih =>
    cases f' with
    | zero => omega
    | succ f' =>
      rw [impLoop_succ, impLoop_succ]
      exact lbody_congr hc fun t ht => ih f' t (by omega) (by omega) (fuel_pos t)

/-- The loop with enough fuel. -/
def loop (w : Nat) (ops : LoopOps) (s : LoopState) : Option (Res GImport) × LoopState := impLoop w ops s.fuel s

theorem loop_eq {w : Nat} {ops : LoopOps} (hc : Consumes ops) (s : LoopState) : loop w ops s = lbody w ops (loop w ops) s := by
  obtain ⟨f, hf⟩ : ∃ f, s.fuel = f + 1 := ⟨s.fuel - 1, by have := fuel_pos s; omega⟩
  unfold loop
  rw [hf, impLoop_succ]
  exact lbody_congr hc fun t ht => impLoop_fuel hc _ _ t (by omega) (Nat.le_refl _)

/-! ### Draining a loop -/

section
variable {w : Nat} {ops : LoopOps} {next : ImpIter → Res (Option GImport) × ImpIter} {embed : LoopState → ImpIter}
  {ys : List (Res GImport)}

/-- How `next` uses the loop. -/
structure Uses (w : Nat) (ops : LoopOps) (next : ImpIter → Res (Option GImport) × ImpIter) (embed : LoopState → ImpIter)
    (ys : List (Res GImport)) : Prop where
  consumes : Consumes ops
  some : ∀ s r s', loop w ops s = (some r, s') → next (embed s) = (r.bind fun x => .ok (.some x), embed s')
  none : ∀ s s', s'.thunks = none → loop w ops s = (none, s') → Drains next (embed s) ys
  congr : ∀ s t, loop w ops s = loop w ops t → next (embed s) = next (embed t)

theorem drain_thunks_end (u : Uses w ops next embed ys) {d : Option RecIter} {lib dt : List UInt8} {zs : List (Res GImport)}
    (h : Drains next (embed ⟨d, none, lib⟩) zs) : Drains next (embed ⟨d, some ⟨dt, true⟩, lib⟩) zs := by
  refine Drains.congr (u.congr _ _ ?_) h
  rw [loop_eq u.consumes, loop_eq u.consumes ⟨d, none, lib⟩]
  unfold lbody
  simp only
  have : thunkNext w ⟨dt, true⟩ = (.ok none, ⟨dt, true⟩) := recNext_end _ _ _ _
  rw [this]

theorem drain_thunks (u : Uses w ops next embed ys) {d : Option RecIter} {lib : List UInt8} {zs : List (Res GImport)}
    (hnp : ∀ v, ops.imp v ≠ .panic)
    (h : Drains next (embed ⟨d, none, lib⟩) zs) {dt : List UInt8} {ts : List Nat} {e : End} (ht : Thunks w dt ts e) :
    Drains next (embed ⟨d, some ⟨dt, false⟩, lib⟩)
      (ts.map (fun v => (ops.imp v).bind fun x => .ok (mkImport lib ops.delay x)) ++ endErr e ++ zs) := by
  have hP : ∀ v, decide (thunkAddress v = 0) = true ↔ v % 2 ^ 31 = 0 := by
    intro v; rw [decide_eq_true_eq, thunkAddress_eq]
  unfold Thunks at ht
  induction ht with
  | @null i tl hi hn =>
    refine Drains.congr (u.congr _ _ ?_) h
    rw [loop_eq u.consumes, loop_eq u.consumes ⟨d, none, lib⟩]
    unfold lbody
    simp only
    have : thunkNext w ⟨i ++ tl, false⟩ = (.ok none, ⟨tl, true⟩) := recNext_null hi ((hP _).2 hn)
    rw [this]
  | @missing dd hl =>
    have hs : loop w ops ⟨d, some ⟨dd, false⟩, lib⟩ = (some .err, ⟨d, some ⟨[], true⟩, lib⟩) := by
      rw [loop_eq u.consumes]
      unfold lbody
      simp only
      have : thunkNext w ⟨dd, false⟩ = (.err, ⟨[], true⟩) := recNext_missing hl
      rw [this]
    exact .err (u.some _ _ _ hs) (drain_thunks_end u h)
  | @item i tl xs e hi hn _ ih =>
    have hs : loop w ops ⟨d, some ⟨i ++ tl, false⟩, lib⟩ =
        (some ((ops.imp (rd .little i)).bind fun x => .ok (mkImport lib ops.delay x)), ⟨d, some ⟨tl, false⟩, lib⟩) := by
      rw [loop_eq u.consumes]
      unfold lbody
      simp only
      have : thunkNext w ⟨i ++ tl, false⟩ = (.ok (some (rd .little i)), ⟨tl, false⟩) := by
        refine recNext_item hi ?_
        rw [decide_eq_false_iff_not, thunkAddress_eq]; exact hn
      rw [this]
    exact Drains.step (Res.bind_no_panic (hnp _) fun _ _ => by simp) (u.some _ _ _ hs) ih

theorem drain_descs_end (u : Uses w ops next embed ys) {d lib : List UInt8}
    (hn : ops.next ⟨d, true⟩ = (.ok none, ⟨d, true⟩)) : Drains next (embed ⟨some ⟨d, true⟩, none, lib⟩) ys := by
  refine u.none _ ⟨none, none, lib⟩ rfl ?_
  rw [loop_eq u.consumes]
  unfold lbody lrest
  simp only
  rw [hn]

theorem drain_no_descs (u : Uses w ops next embed ys) {lib : List UInt8} : Drains next (embed ⟨none, none, lib⟩) ys := by
  refine u.none _ ⟨none, none, lib⟩ rfl ?_
  rw [loop_eq u.consumes]
  unfold lbody lrest
  simp only

/-- The results of the loop for one descriptor. -/
inductive DescRes (w : Nat) (ops : LoopOps) (x : ops.Desc) : List (Res GImport) → Prop where
  | noName : ops.name x = .err → DescRes w ops x [.err]
  | noThunks {n : List UInt8} : ops.name x = .ok n → ops.thunks x = .err → DescRes w ops x [.err]
  | thunks {n dt : List UInt8} {ts : List Nat} {e : End} : ops.name x = .ok n → ops.thunks x = .ok ⟨dt, false⟩ → Thunks w dt ts e →
      DescRes w ops x (ts.map (fun v => (ops.imp v).bind fun y => .ok (mkImport n ops.delay y)) ++ endErr e)

/-- All descriptors. -/
theorem drain_descs (u : Uses w ops next embed ys) {size : Nat} {parse : List UInt8 → ops.Desc} {isNull : ops.Desc → Bool}
    {N : ops.Desc → Prop} (hnext : ops.next = recNext size parse isNull) (hN : ∀ x, isNull x = true ↔ N x)
    (hnp : ∀ v, ops.imp v ≠ .panic)
    {P : ops.Desc → List (Res GImport) → Prop} (hP : ∀ i : List UInt8, i.length = size → ∃ rs, P (parse i) rs ∧ DescRes w ops (parse i) rs)
    {d : List UInt8} {ds : List ops.Desc} {e : End} (h : NullTerm size parse N d ds e) :
    ∃ rs, Each P ds e rs ∧ ∀ lib, Drains next (embed ⟨some ⟨d, false⟩, none, lib⟩) (rs ++ ys) := by
  induction h with
  | @null i tl hi hn =>
    refine ⟨[], ⟨[], rfl, by simp, rfl⟩, fun lib => u.none _ ⟨none, none, lib⟩ rfl ?_⟩
    rw [loop_eq u.consumes]
    unfold lbody lrest
    simp only
    rw [hnext, recNext_null hi ((hN _).2 hn)]
  | @missing dd hl =>
    refine ⟨[.err], ⟨[], rfl, by simp, rfl⟩, fun lib => ?_⟩
    have hs : loop w ops ⟨some ⟨dd, false⟩, none, lib⟩ = (some .err, ⟨some ⟨[], true⟩, none, lib⟩) := by
      rw [loop_eq u.consumes]
      unfold lbody lrest
      simp only
      rw [hnext, recNext_missing hl]
    exact .err (u.some _ _ _ hs) (drain_descs_end u (by rw [hnext]; exact recNext_end _ _ _ _))
  | @item i tl xs e hi hn _ ih =>
    obtain ⟨rs, ⟨rss, h1, h2, h3⟩, h4⟩ := ih
    obtain ⟨r0, hp0, hd0⟩ := hP i hi
    have hnx : ops.next ⟨i ++ tl, false⟩ = (.ok (some (parse i)), ⟨tl, false⟩) := by
      rw [hnext]
      refine recNext_item hi ?_
      cases hc : isNull (parse i) with
      | false => rfl
      | true => exact absurd ((hN _).1 hc) hn
    refine ⟨r0 ++ rs, ⟨r0 :: rss, by simp [h1], ?_, by rw [h3]; simp⟩, fun lib => ?_⟩
    · intro j x r hx hr
      cases j with
      | zero =>
        simp only [List.getElem?_cons_zero, Option.some.injEq] at hx hr
        rw [← hx, ← hr]; exact hp0
      | succ j =>
        rw [List.getElem?_cons_succ] at hx hr
        exact h2 j x r hx hr
    · rw [List.append_assoc]
      cases hd0 with
      | noName he =>
        have hs : loop w ops ⟨some ⟨i ++ tl, false⟩, none, lib⟩ = (some .err, ⟨some ⟨tl, false⟩, none, lib⟩) := by
          rw [loop_eq u.consumes]
          unfold lbody lrest
          simp only
          rw [hnx]
          simp only
          rw [he]
        exact .err (u.some _ _ _ hs) (h4 lib)
      | @noThunks n he ht =>
        have hs : loop w ops ⟨some ⟨i ++ tl, false⟩, none, lib⟩ = (some .err, ⟨some ⟨tl, false⟩, none, n⟩) := by
          rw [loop_eq u.consumes]
          unfold lbody lrest
          simp only
          rw [hnx]
          simp only
          rw [he]
          simp only
          rw [ht]
        exact .err (u.some _ _ _ hs) (h4 n)
      | @thunks n dt ts e' he ht hth =>
        refine Drains.congr (u.congr _ ⟨some ⟨tl, false⟩, some ⟨dt, false⟩, n⟩ ?_) (drain_thunks u hnp (h4 n) hth)
        rw [loop_eq u.consumes]
        unfold lbody lrest
        simp only
        rw [hnx]
        simp only
        rw [he]
        simp only
        rw [ht]
end

theorem thunks_lt {w : Nat} {d : List UInt8} {ts : List Nat} {e : End} (h : Thunks w d ts e) (v : Nat) (hv : v ∈ ts) : v < 256 ^ w := by
  unfold Thunks at h
  induction h with
  | null => simp at hv
  | missing => simp at hv
  | @item i tl xs e hi _ _ ih =>
    rcases List.mem_cons.1 hv with rfl | h
    · rw [← hi]; exact rd_lt _ _
    · exact ih h

theorem thunks_exists (w : Nat) (hw : w = 4 ∨ w = 8) (d : List UInt8) : ∃ ts e, Thunks w d ts e :=
  nullTerm_exists (by omega) _ _ _

/-- One library. -/
theorem lib_exists {w : Nat} (hw : w = 4 ∨ w = 8) {ops : LoopOps} {p : Where} {x : ops.Desc} {name thunks : Nat} (hn : name < 2 ^ 32)
    (ht : thunks < 2 ^ 32) (h1 : p.va < 2 ^ 32) (h2 : p.nameVa < 2 ^ 32)
    (o1 : ops.name x = Bytes.readStringAt p.nameData (wsub name p.nameVa))
    (o2 : ops.thunks x = recsAt p.data p.va thunks) (o3 : ops.imp = importOf w p.nameData p.nameVa) :
    ∃ rs, LibImports w p ops.delay name thunks rs ∧ DescRes w ops x rs := by
  have hN := nameAt_iff p.nameData p.nameVa name hn h2
  cases hs : Bytes.readStringAt p.nameData (wsub name p.nameVa) with
  | panic => exact absurd hs (readStringAt_no_panic _ _)
  | err =>
    refine ⟨[.err], .noName fun n hc => ?_, .noName (by rw [o1, hs])⟩
    rw [(hN n).2 hc] at hs; simp at hs
  | ok n =>
    obtain ⟨off, ho⟩ := rva_exists (va := p.va) ht h1
    rcases Nat.lt_or_ge p.data.length off with hl | hl
    · have hall : ∀ off', Rva p.va thunks off' → p.data.length < off' := by
        intro off' h'
        rw [(wsub_iff ht h1 _).1 h', ← (wsub_iff ht h1 _).1 ho]; exact hl
      exact ⟨[.err], .noThunks ((hN n).1 hs) hall, .noThunks (by rw [o1, hs]) (by rw [o2, recsAt_err ht h1 hall])⟩
    · obtain ⟨ts, e, hts⟩ := thunks_exists w hw (p.data.drop off)
      refine ⟨_, .thunks ((hN n).1 hs) ho hl hts ?_ ?_, .thunks (by rw [o1, hs]) (by rw [o2, recsAt_ok ht h1 ho hl]) hts⟩
      · simp
      · intro j v r hv hr
        rw [List.getElem?_map, hv] at hr
        obtain rfl := Option.some.inj hr
        rw [o3]
        exact thunkItem_spec w hw _ _ v h2 (thunks_lt hts v (List.mem_of_getElem? hv)) _ _

/-- The loop of the import table. -/
theorem imports_drain {w : Nat} (hw : w = 4 ∨ w = 8) {t : ImportTable} {next : ImpIter → Res (Option GImport) × ImpIter}
    {embed : LoopState → ImpIter} {ys : List (Res GImport)} (u : Uses w (t.ops w) next embed ys) (h1 : t.sectionAddress < 2 ^ 32)
    (h2 : t.nameAddress < 2 ^ 32) (h3 : t.importAddress < 2 ^ 32) {d : RecIter} (hd : t.descriptors = .ok d) :
    ∃ rs, Imports w t rs ∧ Drains next (embed ⟨some d, none, []⟩) (rs ++ ys) := by
  obtain ⟨off, ho, hl, rfl⟩ := (recsAt_iff h3 h1 d).1 hd
  obtain ⟨ds, e, hds⟩ := nullTerm_exists (size := 20) (by decide) ImportDesc.parse (fun d => d = ⟨0, 0, 0, 0, 0⟩) (t.sectionData.drop off)
  have := drain_descs u (size := 20) (parse := ImportDesc.parse) (isNull := ImportDesc.isNull) rfl importDesc_null
    (importOf_no_panic _ _ _) (P := fun d => LibImports w (ImportTable.where t) false d.name (thunksOf d)) (fun i hi => ?_) hds
  · obtain ⟨rs, hrs, hdr⟩ := this
    exact ⟨rs, ⟨off, ds, e, ho, hl, hds, hrs⟩, hdr []⟩
  · have hf : ∀ o, field .little i o 4 < 2 ^ 32 := fun o => field_lt .little i o 4
    refine lib_exists (ops := t.ops w) (p := ImportTable.where t) hw (hf 12) ?_ h1 h2 rfl ?_ rfl
    · unfold thunksOf
      split
      · exact hf 0
      · exact hf 16
    · show recsAt _ _ _ = _
      unfold thunksOf
      by_cases hz : (ImportDesc.parse i).originalFirstThunk = 0
      · rw [if_pos hz, if_neg (by simpa using hz)]; rfl
      · rw [if_neg hz, if_pos hz]; rfl

/-- The loop of the delay-load import table. -/
theorem delay_drain {w : Nat} (hw : w = 4 ∨ w = 8) {t : DelayTable} {next : ImpIter → Res (Option GImport) × ImpIter}
    {embed : LoopState → ImpIter} {ys : List (Res GImport)} (u : Uses w (t.ops w) next embed ys) (h1 : t.sectionAddress < 2 ^ 32)
    (h3 : t.importAddress < 2 ^ 32) {d : RecIter} (hd : t.descriptors = .ok d) :
    ∃ rs, DelayImports w t rs ∧ ∀ lib, Drains next (embed ⟨some d, none, lib⟩) (rs ++ ys) := by
  obtain ⟨off, ho, hl, rfl⟩ := (recsAt_iff h3 h1 d).1 hd
  obtain ⟨ds, e, hds⟩ := nullTerm_exists (size := 32) (by decide) DelayDesc.parse (fun d => d = ⟨0, 0, 0, 0, 0, 0, 0, 0⟩)
    (t.sectionData.drop off)
  have := drain_descs u (size := 32) (parse := DelayDesc.parse) (isNull := DelayDesc.isNull) rfl delayDesc_null
    (importOf_no_panic _ _ _) (P := DelayLib w t) (fun i hi => ?_) hds
  · obtain ⟨rs, hrs, hdr⟩ := this
    exact ⟨rs, ⟨off, ds, e, ho, hl, hds, hrs⟩, hdr⟩
  · have hf : ∀ o, field .little i o 4 < 2 ^ 32 := fun o => field_lt .little i o 4
    unfold DelayLib
    have ha : (DelayDesc.parse i).attributes &&& 1 = (DelayDesc.parse i).attributes % 2 := Nat.and_two_pow_sub_one_eq_mod _ 1
    by_cases hz : (DelayDesc.parse i).attributes % 2 = 0
    · refine ⟨[.err], by rw [if_pos hz], .noName ?_⟩
      show DelayTable.descName t _ = _
      unfold DelayTable.descName
      rw [ha, if_pos hz]
    · obtain ⟨rs, h4, h5⟩ := lib_exists (ops := t.ops w) (p := DelayTable.where t) (x := DelayDesc.parse i) hw (hf 4) (hf 16) h1 h1
        (by
          show DelayTable.descName t _ = _
          unfold DelayTable.descName
          rw [ha, if_neg hz]; rfl) rfl rfl
      exact ⟨rs, by rw [if_neg hz]; exact h4, h5⟩

/-! ### The iterators -/

/-- What tables found in a file guarantee. -/
def TableFits (t : ImportTable) : Prop := t.sectionAddress < 2 ^ 32 ∧ t.nameAddress < 2 ^ 32 ∧ t.importAddress < 2 ^ 32
def DelayFits (t : DelayTable) : Prop := t.sectionAddress < 2 ^ 32 ∧ t.importAddress < 2 ^ 32

theorem next_none {it : ImpIter} (h : it.table = none) : it.next = it.nextDelay := by
  unfold ImpIter.next
  rw [h]

theorem delay_uses (w : Nat) (t : DelayTable) (ds : Option RecIter) :
    Uses w (t.ops w) ImpIter.next (fun s => ⟨w, none, ds, some t, s.descs, s.thunks, s.library⟩) [] where
  consumes := fun _ _ _ h => recNext_consumes (by decide) h
  some := by
    intro s r s' h
    have : impLoop w (t.ops w) s.fuel s = (.some r, s') := h
    rw [next_none rfl]
    unfold ImpIter.nextDelay
    simp only
    rw [this]
  none := by
    intro s s' _ h
    have : impLoop w (t.ops w) s.fuel s = (.none, s') := h
    refine .done (s' := ⟨w, none, ds, none, s'.descs, s'.thunks, s'.library⟩) ?_
    rw [next_none rfl]
    unfold ImpIter.nextDelay
    simp only
    rw [this]
  congr := by
    intro s s' h
    have h' : impLoop w (t.ops w) s.fuel s = impLoop w (t.ops w) s'.fuel s' := h
    rw [next_none rfl, next_none rfl]
    unfold ImpIter.nextDelay
    simp only
    rw [h']

/-- The second loop does not use the descriptors of the first one. -/
theorem nextDelay_descs (it : ImpIter) (ds : Option RecIter) (h : it.table = none) :
    ImpIter.nextDelay { it with descs := ds } = ((ImpIter.nextDelay it).1, { (ImpIter.nextDelay it).2 with descs := ds }) ∧
      (ImpIter.nextDelay it).2.table = none := by
  obtain ⟨w, tb, d0, dt, dd, th, lib⟩ := it
  simp only at h
  subst h
  unfold ImpIter.nextDelay
  cases dt with
  | none => exact ⟨rfl, rfl⟩
  | some t =>
    simp only
    cases impLoop w (t.ops w) (LoopState.fuel ⟨dd, th, lib⟩) ⟨dd, th, lib⟩ with
    | mk r s => cases r <;> exact ⟨rfl, rfl⟩

theorem drains_descs {it : ImpIter} {rs : List (Res GImport)} (hd : Drains ImpIter.next it rs) (h : it.table = none)
    (ds : Option RecIter) : Drains ImpIter.next { it with descs := ds } rs := by
  have key : ∀ (it : ImpIter) r s', it.table = none → it.next = (r, s') →
      ImpIter.next { it with descs := ds } = (r, { s' with descs := ds }) ∧ s'.table = none := by
    intro it r s' h hn
    rw [next_none h] at hn
    have := nextDelay_descs it ds h
    rw [hn] at this
    refine ⟨?_, this.2⟩
    rw [next_none (it := { it with descs := ds }) h]
    exact this.1
  induction hd with
  | done hn => exact .done (key _ _ _ h hn).1
  | item hn _ ih => exact .item (key _ _ _ h hn).1 (ih (key _ _ _ h hn).2)
  | err hn _ ih => exact .err (key _ _ _ h hn).1 (ih (key _ _ _ h hn).2)
  | panic hn => exact .panic (key _ _ _ h hn).1

theorem import_uses (w : Nat) (t : ImportTable) (dt : Option DelayTable) (dd : Option RecIter) (ys : List (Res GImport))
    (hy : ∀ ds lib, Drains ImpIter.next ⟨w, none, ds, dt, dd, none, lib⟩ ys) :
    Uses w (t.ops w) ImpIter.next (fun s => ⟨w, some t, s.descs, dt, dd, s.thunks, s.library⟩) ys where
  consumes := fun _ _ _ h => recNext_consumes (by decide) h
  some := by
    intro s r s' h
    have : impLoop w (t.ops w) s.fuel s = (.some r, s') := h
    unfold ImpIter.next
    simp only
    rw [this]
  none := by
    intro s s' hn h
    have : impLoop w (t.ops w) s.fuel s = (.none, s') := h
    refine Drains.congr ?_ (hy s'.descs s'.library)
    show ImpIter.next _ = ImpIter.nextDelay _
    unfold ImpIter.next
    simp only
    rw [this]
    simp only
    rw [hn]
  congr := by
    intro s s' h
    have h' : impLoop w (t.ops w) s.fuel s = impLoop w (t.ops w) s'.fuel s' := h
    unfold ImpIter.next
    simp only
    rw [h']

theorem second_drain {w : Nat} (hw : w = 4 ∨ w = 8) (dt : Option DelayTable) (hf : ∀ t, dt = some t → DelayFits t) (dd : Option RecIter)
    (hd : optDescs DelayTable.descriptors dt = .ok dd) :
    ∃ ys, Opt (DelayImports w) dt ys ∧ ∀ ds lib, Drains ImpIter.next ⟨w, none, ds, dt, dd, none, lib⟩ ys := by
  cases dt with
  | none => exact ⟨[], rfl, fun ds lib => .done (s' := ⟨w, none, ds, none, dd, none, lib⟩) rfl⟩
  | some t =>
    have hd : (t.descriptors.bind fun d => .ok (some d)) = .ok dd := hd
    cases hr : t.descriptors with
    | err => rw [hr] at hd; simp at hd
    | panic => rw [hr] at hd; simp at hd
    | ok d =>
      rw [hr, Res.ok_bind, Res.ok.injEq] at hd
      subst hd
      obtain ⟨rs, h1, h2⟩ := delay_drain hw (delay_uses w t none) (hf t rfl).1 (hf t rfl).2 hr
      refine ⟨rs, h1, fun ds lib => ?_⟩
      have := drains_descs (h2 lib) rfl ds
      rw [List.append_nil] at this
      exact this

end Obj.Pe
