import Verif.Proof.DyldReloc

/-! # C93: the relocations of a dyld shared cache -/

namespace Obj.Props
open Obj Obj.Dyld Obj.Spec.Dyld
open Obj.Fixup (Auth)

/-- C93: reading the slide info of a mapping never panics, and succeeds exactly if it is laid out as the format says. -/
theorem C93_slide (m : Mapping) (en : Endianness) (data : List UInt8) :
    m.slideInfo en data ≠ .panic ∧ ∀ s, m.slideInfo en data = .ok s ↔ SlideIn en data m.slide s :=
  ⟨slide_no_panic m en data, slide_iff m en data⟩

/-- C93: a pointer of version 3 has exactly one reading, the one that the format gives. -/
theorem C93_pointer3 (v add next value : Nat) (auth : Option Auth) (hv : v < 2 ^ 64) :
    Ptr3 add v next value auth ↔ ptr3 v add = (next, value, auth) := ptr3_iff add v next value auth hv

/-- C93: the same for version 5. -/
theorem C93_pointer5 (v add next value : Nat) (auth : Option Auth) (hv : v < 2 ^ 64) :
    Ptr5 add v next value auth ↔ ptr5 v add = (next, value, auth) := ptr5_iff add v next value auth hv

/-- C93: a pointer of version 2 with a mask of `w` bits from bit `k` on: the distance is in these bits, and the value is in the others. -/
theorem C93_pointer2 (k w v next raw : Nat) (hw : 0 < w) (hk : k + w ≤ 64) (hv : v < 2 ^ 64) :
    Ptr2 ((2 ^ w - 1) * 2 ^ k) v next raw ↔ next = v / 2 ^ k % 2 ^ w ∧ raw = v % 2 ^ k + v / 2 ^ (k + w) * 2 ^ (k + w) := by
  have hlow : ((2 ^ w - 1) * 2 ^ k) % 2 ^ (k + 1) = 2 ^ k := by
    have h2 : 2 ^ w = 2 * 2 ^ (w - 1) := by
      rw [← Nat.pow_succ']; congr 1; omega
    rw [Nat.pow_succ, Nat.mul_comm _ (2 ^ k), Nat.mul_mod_mul_left]
    have := Nat.two_pow_pos (w - 1)
    rw [show (2 ^ w - 1) % 2 = 1 by omega, Nat.mul_one]
  have hm : v &&& (2 ^ w - 1) * 2 ^ k = v / 2 ^ k % 2 ^ w * 2 ^ k := by
    rw [Nat.mul_comm _ (2 ^ k), ← Nat.shiftRight_eq_div_pow, ← Nat.and_two_pow_sub_one_eq_mod, ← Nat.shiftLeft_eq]
    apply Nat.eq_of_testBit_eq
    intro i
    rw [Nat.testBit_and, Nat.mul_comm, ← Nat.shiftLeft_eq, Nat.testBit_shiftLeft, Nat.testBit_shiftLeft, Nat.testBit_and, Nat.testBit_shiftRight]
    by_cases hi : k ≤ i
    · simp [hi, show k + (i - k) = i by omega]
    · simp [hi]
  have hsum : v % 2 ^ k + v / 2 ^ (k + w) * 2 ^ (k + w) + v / 2 ^ k % 2 ^ w * 2 ^ k = v := by
    have h1 := Nat.div_add_mod v (2 ^ k)
    have h2 := Nat.div_add_mod (v / 2 ^ k) (2 ^ w)
    rw [Nat.div_div_eq_div_mul, ← Nat.pow_add] at h2
    have h3 : v / 2 ^ k * 2 ^ k = (2 ^ w * (v / 2 ^ (k + w)) + v / 2 ^ k % 2 ^ w) * 2 ^ k := by rw [h2]
    rw [Nat.add_mul, Nat.mul_comm (2 ^ w), Nat.mul_assoc, ← Nat.pow_add, Nat.add_comm w k] at h3
    rw [Nat.mul_comm] at h1
    omega
  unfold Ptr2
  rw [hm]
  constructor
  · rintro ⟨k', h1, h2, h3⟩
    have := low_unique h1 hlow
    subst this
    exact ⟨Nat.eq_of_mul_eq_mul_right (Nat.two_pow_pos _) h2, by omega⟩
  · rintro ⟨rfl, rfl⟩
    exact ⟨k, hlow, rfl, hsum⟩

/-! ## Iterators -/

/-- `next` gives the items, and then the result for ever. -/
private def Drn {σ α : Type} (next : σ → Res (Option α) × σ) (s : σ) (xs : List α) (r : Res (Option α)) : Prop :=
  ∃ s', Yields next s xs s' ∧ Stays next s' r

private theorem stays_of {σ α : Type} {next : σ → Res (Option α) × σ} {s : σ} {r : Res (Option α)} (h : next s = (r, s)) : Stays next s r := by
  intro st h0 hs n
  have : st n = s := by
    induction n with
    | zero => exact h0
    | succ n ih => rw [hs, ih, h]
  rw [this, h]

private theorem drn_stop {σ α : Type} {next : σ → Res (Option α) × σ} {s : σ} {r : Res (Option α)} (h : next s = (r, s)) : Drn next s [] r :=
  ⟨s, .nil, stays_of h⟩

private theorem stays_congr {σ α : Type} {next : σ → Res (Option α) × σ} {s s1 : σ} {r : Res (Option α)} (he : next s = next s1)
    (h : Stays next s1 r) : Stays next s r := by
  intro st h0 hs n
  have h1 := h (fun n => if n = 0 then s1 else st n) rfl (fun n => by
    simp only [Nat.add_eq_zero_iff, Nat.succ_ne_self, and_false, if_false]
    rw [hs]
    by_cases hn : n = 0
    · subst hn; rw [h0, he]; rfl
    · rw [if_neg hn]) n
  by_cases hn : n = 0
  · subst hn; rw [h0, he]; exact h1
  · rw [if_neg hn] at h1; exact h1

private theorem drn_congr {σ α : Type} {next : σ → Res (Option α) × σ} {s s1 : σ} {xs : List α} {r : Res (Option α)} (he : next s = next s1)
    (h : Drn next s1 xs r) : Drn next s xs r := by
  obtain ⟨s', h1, h2⟩ := h
  cases h1 with
  | nil => exact ⟨s, .nil, stays_congr he h2⟩
  | cons k1 k2 => exact ⟨s', .cons (he.trans k1) k2, h2⟩

private theorem drn_cons {σ α : Type} {next : σ → Res (Option α) × σ} {s s1 : σ} {x : α} {xs : List α} {r : Res (Option α)}
    (he : next s = (.ok (some x), s1)) (h : Drn next s1 xs r) : Drn next s (x :: xs) r := by
  obtain ⟨s', h1, h2⟩ := h
  exact ⟨s', .cons he h1, h2⟩

private theorem drn_map {σ τ α : Type} {next : σ → Res (Option α) × σ} {next' : τ → Res (Option α) × τ} (f : σ → τ)
    (hf : ∀ s, next' (f s) = ((next s).1, f (next s).2)) {s : σ} {xs : List α} {r : Res (Option α)} (h : Drn next s xs r) :
    Drn next' (f s) xs r := by
  obtain ⟨s', h1, h2⟩ := h
  refine ⟨f s', ?_, ?_⟩
  · induction h1 with
    | nil => exact .nil
    | cons k1 _ ih => exact .cons (by rw [hf, k1]) (ih h2)
  · intro st h0 hs n
    have iter : ∃ st' : Nat → σ, st' 0 = s' ∧ ∀ n, st' (n + 1) = (next (st' n)).2 :=
      ⟨fun n => Nat.rec s' (fun _ x => (next x).2) n, rfl, fun n => rfl⟩
    obtain ⟨st', e0, es⟩ := iter
    have e : ∀ n, st n = f (st' n) := by
      intro n
      induction n with
      | zero => rw [h0, e0]
      | succ n ih => rw [hs, es, ih, hf]
    rw [e, hf]
    exact h2 st' e0 es n

/-! ### Versions 3 and 5 -/

/-- The reading of the pointer. -/
private def Ctx3.ptr (c : Ctx3) (v : Nat) : Nat × Nat × Option Auth := if c.v5 then ptr5 v c.valueAdd else ptr3 v c.valueAdd

private theorem ptr_small (c : Ctx3) (v : Nat) : (Ctx3.ptr c v).1 < 2 ^ 11 := by
  unfold Ctx3.ptr
  split
  · rw [ptr5_eq]; exact Nat.mod_lt _ (by decide)
  · rw [ptr3_eq]; exact Nat.mod_lt _ (by decide)

private theorem at3_iff (c : Ctx3) (o n : Nat) (r : Option Reloc) : At3 c o n r ↔ c.fileOffset + o + 8 ≤ c.data.length ∧
    n = 8 * (Ctx3.ptr c (field c.en c.data (c.fileOffset + o) 8)).1 ∧
    r = some ⟨o, (Ctx3.ptr c (field c.en c.data (c.fileOffset + o) 8)).2.1, (Ctx3.ptr c (field c.en c.data (c.fileOffset + o) 8)).2.2⟩ := by
  have hv := field8_lt c.en c.data (c.fileOffset + o)
  unfold At3 Ctx3.ptr
  generalize field c.en c.data (c.fileOffset + o) 8 = v at *
  refine and_congr Iff.rfl ?_
  constructor
  · rintro ⟨next, value, auth, rfl, rfl, h⟩
    split at h
    · rw [ptr5_iff _ _ _ _ _ hv] at h; rw [h]; simp [*]
    · rw [ptr3_iff _ _ _ _ _ hv] at h; rw [h]; simp [*]
  · rintro ⟨rfl, rfl⟩
    refine ⟨_, _, _, rfl, rfl, ?_⟩
    split
    · exact (ptr5_iff _ _ _ _ _ hv).2 (by simp [*])
    · exact (ptr3_iff _ _ _ _ _ hv).2 (by simp [*])

private theorem page3_ok (c : Ctx3) (s : St3) (hl : c.data.length < 2 ^ 63) (h : c.fileOffset + s.offset + 8 ≤ c.data.length) :
    c.pageNext s = (.ok (some ⟨s.offset, (Ctx3.ptr c (field c.en c.data (c.fileOffset + s.offset) 8)).2.1,
        (Ctx3.ptr c (field c.en c.data (c.fileOffset + s.offset) 8)).2.2⟩),
      if (Ctx3.ptr c (field c.en c.data (c.fileOffset + s.offset) 8)).1 = 0 then { s with page := false }
      else { s with offset := s.offset + 8 * (Ctx3.ptr c (field c.en c.data (c.fileOffset + s.offset) 8)).1 }) := by
  have hs := ptr_small c (field c.en c.data (c.fileOffset + s.offset) 8)
  unfold Ctx3.pageNext
  rw [if_pos (by simp only [Nat.reducePow] at *; omega), readAt_eq _ _ _ (by omega), if_pos h]
  simp only []
  have e : rd c.en (slice c.data (c.fileOffset + s.offset) 8) = field c.en c.data (c.fileOffset + s.offset) 8 := rfl
  rw [e]
  generalize field c.en c.data (c.fileOffset + s.offset) 8 = v at *
  have e2 : (if c.v5 then ptr5 v c.valueAdd else ptr3 v c.valueAdd) = Ctx3.ptr c v := rfl
  rw [e2]
  generalize Ctx3.ptr c v = p at *
  by_cases hz : p.1 = 0
  · rw [if_pos hz, if_pos hz]
  · rw [if_neg hz, if_neg hz, if_pos (by simp only [Nat.reducePow] at *; omega), Nat.mul_comm]

private theorem page3_err (c : Ctx3) (s : St3) (h : ¬ c.fileOffset + s.offset + 8 ≤ c.data.length) : c.pageNext s = (.err, s) := by
  unfold Ctx3.pageNext
  split
  · rw [readAt_eq _ _ _ (by omega), if_neg h]
  · rfl

private theorem chain3_good {c : Ctx3} (hl : c.data.length < 2 ^ 63) {o : Nat} {xs : List Reloc} {good : Bool} (h : Chain (At3 c) o xs good)
    {i : Nat} {ys : List Reloc} {r : Res (Option Reloc)} (k : ∀ s : St3, s.page = false → s.startIndex = i → Drn c.next s ys r) :
    good = true → Drn c.next ⟨true, i, o⟩ (xs ++ ys) r := by
  induction h with
  | @last o rel hp =>
    intro _
    obtain ⟨h1, h2, h3⟩ := (at3_iff _ _ _ _).1 hp
    subst h3
    have e : c.next ⟨true, i, o⟩ = c.pageNext ⟨true, i, o⟩ := rfl
    rw [page3_ok c ⟨true, i, o⟩ hl h1, if_pos (by simp only []; omega)] at e
    exact drn_cons e (k _ rfl rfl)
  | @step o n rel xs good hp hn _ _ ih =>
    intro hg
    obtain ⟨h1, h2, h3⟩ := (at3_iff _ _ _ _).1 hp
    subst h3
    have e : c.next ⟨true, i, o⟩ = c.pageNext ⟨true, i, o⟩ := rfl
    rw [page3_ok c ⟨true, i, o⟩ hl h1, if_neg (by simp only []; omega)] at e
    simp only [← h2] at e
    exact drn_cons e (ih hg)
  | bad _ => intro h; cases h

private theorem chain3_bad {c : Ctx3} (hl : c.data.length < 2 ^ 63) {o : Nat} {xs : List Reloc} {good : Bool} (h : Chain (At3 c) o xs good)
    (i : Nat) : good = false → Drn c.next ⟨true, i, o⟩ xs .err := by
  induction h with
  | last _ => intro h; cases h
  | @step o n rel xs good hp hn _ _ ih =>
    intro hg
    obtain ⟨h1, h2, h3⟩ := (at3_iff _ _ _ _).1 hp
    subst h3
    have e : c.next ⟨true, i, o⟩ = c.pageNext ⟨true, i, o⟩ := rfl
    rw [page3_ok c ⟨true, i, o⟩ hl h1, if_neg (by simp only []; omega)] at e
    simp only [← h2] at e
    exact drn_cons e (ih hg)
  | @bad o hn =>
    intro _
    refine drn_stop (s := (⟨true, i, o⟩ : St3)) (page3_err c ⟨true, i, o⟩ fun h => hn ?_)
    refine ⟨_, _, (at3_iff c o _ _).2 ⟨h, rfl, rfl⟩, ?_⟩
    have hs := ptr_small c (field c.en c.data (c.fileOffset + o) 8)
    simp only [Nat.reducePow] at *
    omega

private theorem start3 (c : Ctx3) (s : St3) (hs : s.page = false) (p x : Nat) (hp : s.startIndex = p) (hx : c.starts[p]? = some x) :
    c.next s = if x = 0xffff then c.next ⟨false, p + 1, s.offset⟩ else if U64 ≤ p * c.pageSize + x then (.panic, s)
      else c.next ⟨true, p + 1, p * c.pageSize + x⟩ := by
  obtain ⟨pg, si, off⟩ := s
  subst hs hp
  have e : ∀ a b, c.next ⟨false, a, b⟩ = c.startNext ⟨false, a, b⟩ := fun _ _ => rfl
  have e' : ∀ a b, c.next ⟨true, a, b⟩ = c.pageNext ⟨true, a, b⟩ := fun _ _ => rfl
  simp only [e, e']
  rw [Ctx3.startNext]
  simp only []
  split
  · rename_i h; rw [hx] at h; cases h
  · rename_i x' h
    rw [hx] at h
    injection h with h
    subst h
    rfl

private theorem end3 (c : Ctx3) (s : St3) (hs : s.page = false) (p : Nat) (hp : s.startIndex = p) (hx : c.starts.length ≤ p) :
    c.next s = (.ok none, s) := by
  obtain ⟨pg, si, off⟩ := s
  subst hs hp
  have e : ∀ a b, c.next ⟨false, a, b⟩ = c.startNext ⟨false, a, b⟩ := fun _ _ => rfl
  rw [e, Ctx3.startNext]
  simp only []
  split
  · rfl
  · rename_i x' h
    rw [List.getElem?_eq_none hx] at h
    cases h

/-- The table of starts comes from slide info. -/
private structure Small (starts : List Nat) (pageSize : Nat) : Prop where
  size : pageSize < 2 ^ 32
  count : starts.length < 2 ^ 32
  items : ∀ (i x : Nat), starts[i]? = some x → x < 2 ^ 16

private theorem Small.page {starts : List Nat} {pageSize : Nat} (h : Small starts pageSize) {p x : Nat} (hx : starts[p]? = some x) :
    p * pageSize + x < 2 ^ 64 := by
  have h1 := h.items p x hx
  have h2 := (List.getElem?_eq_some_iff.1 hx).1
  have h3 := h.size
  have h4 := h.count
  have : p * pageSize ≤ (2 ^ 32 - 1) * (2 ^ 32 - 1) := Nat.mul_le_mul (by omega) (by omega)
  simp only [Nat.reducePow, Nat.reduceSub, Nat.reduceMul] at *
  omega

private def endRes (e : Ending) : Res (Option Reloc) := if e = .bad then .err else .ok none

private theorem pages3 {c : Ctx3} (hl : c.data.length < 2 ^ 63) (hc : Small c.starts c.pageSize) {p : Nat} {xs : List Reloc} {e : Ending}
    (h : Pages3 c p xs e) : ∀ s : St3, s.page = false → s.startIndex = p → Drn c.next s xs (endRes e) := by
  induction h with
  | done hp => intro s h1 h2; exact drn_stop (end3 c s h1 _ h2 hp)
  | skip hx _ ih =>
    intro s h1 h2
    have e := start3 c s h1 _ _ h2 hx
    rw [if_pos rfl] at e
    exact drn_congr e (ih _ rfl rfl)
  | page hx hne hch _ ih =>
    intro s h1 h2
    have e := start3 c s h1 _ _ h2 hx
    have := hc.page hx
    rw [if_neg hne, if_neg (by simp only [Nat.reducePow] at *; omega)] at e
    exact drn_congr e (chain3_good hl hch (fun s' k1 k2 => ih s' k1 k2) rfl)
  | broken hx hne hch =>
    intro s h1 h2
    have e := start3 c s h1 _ _ h2 hx
    have := hc.page hx
    rw [if_neg hne, if_neg (by simp only [Nat.reducePow] at *; omega)] at e
    exact drn_congr e (chain3_bad hl hch _ rfl)

/-- A chain that moves on inside the data ends. -/
private theorem chain_exists {P : Nat → Nat → Option Reloc → Prop} {len : Nat} (hP : ∀ o n r, P o n r → o < len) :
    ∀ (k o : Nat), len - o = k → ∃ xs good, Chain P o xs good := by
  intro k
  induction k using Nat.strongRecOn with
  | ind k ih =>
    intro o hk
    by_cases h : ∃ n r, P o n r ∧ o + n < 2 ^ 64
    · obtain ⟨n, r, h1, h2⟩ := h
      by_cases hn : n = 0
      · subst hn; exact ⟨_, _, .last h1⟩
      · have := hP _ _ _ h1
        obtain ⟨xs, good, h3⟩ := ih (len - (o + n)) (by omega) (o + n) rfl
        exact ⟨_, _, .step h1 hn h2 h3⟩
    · exact ⟨_, _, .bad h⟩

private theorem pages3_exists (c : Ctx3) : ∀ (k p : Nat), c.starts.length - p = k → ∃ xs e, Pages3 c p xs e := by
  intro k
  induction k with
  | zero => intro p hp; exact ⟨_, _, .done (by omega)⟩
  | succ k ih =>
    intro p hp
    have hx : c.starts[p]? = some (c.starts[p]'(by omega)) := List.getElem?_eq_getElem _
    generalize c.starts[p]'(by omega) = x at hx
    obtain ⟨ys, e, h1⟩ := ih (p + 1) (by omega)
    by_cases hne : x = 0xffff
    · subst hne; exact ⟨_, _, .skip hx h1⟩
    · obtain ⟨xs, good, h2⟩ := chain_exists (P := At3 c) (len := c.data.length) (fun o n r h => by have := h.1; omega) _ (p * c.pageSize + x) rfl
      cases good with
      | true => exact ⟨_, _, .page hx hne h2 h1⟩
      | false => exact ⟨_, _, .broken hx hne h2⟩

/-! ### Version 2 -/

private theorem next_go {c : Ctx2} {s s' : St2} (h : c.step s = .go s') : c.next s = c.next s' := by
  rw [Ctx2.next]
  split
  · rename_i h'; rw [h] at h'; cases h'
  · rename_i h'; rw [h] at h'; injection h' with h'; rw [h']

private theorem next_ret {c : Ctx2} {s s' : St2} {r : Res (Option Reloc)} (h : c.step s = .ret r s') : c.next s = (r, s') := by
  rw [Ctx2.next]
  split
  · rename_i h'; rw [h] at h'; injection h' with h1 h2; rw [h1, h2]
  · rename_i h'; rw [h] at h'; cases h'

private def nextOf (c : Ctx2) (v : Nat) : Nat := (v &&& c.deltaMask) >>> trailingZeros c.deltaMask
private def rawOf (c : Ctx2) (v : Nat) : Nat := v &&& (U64 - 1 - c.deltaMask)

private theorem at2_iff (c : Ctx2) (h0 : c.deltaMask ≠ 0) (hm : c.deltaMask < 2 ^ 64) (po o n : Nat) (r : Option Reloc) :
    At2 c po o n r ↔ c.fileOffset + po + o + 8 ≤ c.data.length ∧ n = 4 * nextOf c (field c.en c.data (c.fileOffset + po + o) 8) ∧
      r = if rawOf c (field c.en c.data (c.fileOffset + po + o) 8) = 0 then none
        else some ⟨o, (rawOf c (field c.en c.data (c.fileOffset + po + o) 8) + c.valueAdd) % 2 ^ 64, none⟩ := by
  have hv := field8_lt c.en c.data (c.fileOffset + po + o)
  unfold At2
  refine and_congr Iff.rfl ?_
  constructor
  · rintro ⟨next, raw, rfl, h, rfl⟩
    obtain ⟨rfl, rfl⟩ := (ptr2_iff _ _ _ _ h0 hm hv).1 h
    exact ⟨rfl, rfl⟩
  · rintro ⟨rfl, rfl⟩
    exact ⟨_, _, rfl, (ptr2_iff _ _ _ _ h0 hm hv).2 ⟨rfl, rfl⟩, rfl⟩

private theorem step_chain (c : Ctx2) (s : St2) (h : s.state = .page ∨ s.state = .pageExtra) : c.step s = c.pageStep s := by
  unfold Ctx2.step
  rcases h with h | h <;> rw [h]

/-- The state after the last pointer of a chain. -/
private def after : State2 → State2
  | .pageExtra => .extra
  | _ => .start

/-- One pointer of a chain. -/
private theorem page2 (c : Ctx2) (h0 : c.deltaMask ≠ 0) (hm : c.deltaMask < 2 ^ 64) (hl : c.data.length < 2 ^ 63) (s : St2)
    (hst : s.state = .page ∨ s.state = .pageExtra) :
    (∀ n r, At2 c s.pageOffset s.offset n r → s.offset + n < 2 ^ 64 →
      c.pageStep s = (match r with
        | none => .go (if n = 0 then { s with state := after s.state } else { s with offset := s.offset + n })
        | some x => .ret (.ok (some x)) (if n = 0 then { s with state := after s.state } else { s with offset := s.offset + n }))) ∧
    ((¬ ∃ n r, At2 c s.pageOffset s.offset n r ∧ s.offset + n < 2 ^ 64) → c.pageStep s = .ret .err s) := by
  have ht := (tz_spec h0 hm).1
  have hafter : (if s.state = .pageExtra then State2.extra else State2.start) = after s.state := by
    rcases hst with h | h <;> rw [h] <;> rfl
  constructor
  · intro n r ha hb
    obtain ⟨h1, h2, h3⟩ := (at2_iff c h0 hm _ _ _ _).1 ha
    unfold Ctx2.pageStep
    rw [if_pos (by simp only [Nat.reducePow] at *; omega), if_pos (by simp only [Nat.reducePow] at *; omega), readAt_eq _ _ _ (by omega), if_pos h1]
    have e : rd c.en (slice c.data (c.fileOffset + s.pageOffset + s.offset) 8) = field c.en c.data (c.fileOffset + s.pageOffset + s.offset) 8 := rfl
    simp only [e]
    generalize field c.en c.data (c.fileOffset + s.pageOffset + s.offset) 8 = v at *
    have e1 : (v &&& c.deltaMask) >>> trailingZeros c.deltaMask = nextOf c v := rfl
    have e2 : v &&& (U64 - 1 - c.deltaMask) = rawOf c v := rfl
    rw [e1, e2, if_neg (by omega)]
    generalize nextOf c v = nx at *
    generalize rawOf c v = raw at *
    have hz : nx = 0 ↔ n = 0 := by omega
    by_cases hn : n = 0
    · rw [if_pos (hz.2 hn), if_pos hn, hafter]
      by_cases hr : raw = 0
      · rw [if_pos hr] at h3; subst h3; rw [if_neg (by simp [hr])]
      · rw [if_neg hr] at h3; subst h3; rw [if_pos hr]
    · rw [if_neg (fun h => hn (hz.1 h)), if_neg hn, if_pos (by simp only [Nat.reducePow] at *; omega),
        if_pos (by simp only [Nat.reducePow] at *; omega), Nat.mul_comm nx 4, ← h2]
      by_cases hr : raw = 0
      · rw [if_pos hr] at h3; subst h3; rw [if_neg (by simp [hr])]
      · rw [if_neg hr] at h3; subst h3; rw [if_pos hr]
  · intro hne
    unfold Ctx2.pageStep
    split
    rotate_left
    · rfl
    split
    rotate_left
    · rfl
    rw [readAt_eq _ _ _ (by omega)]
    by_cases h1 : c.fileOffset + s.pageOffset + s.offset + 8 ≤ c.data.length
    rotate_left
    · rw [if_neg h1]
    rw [if_pos h1]
    have hno : ¬ s.offset + 4 * nextOf c (field c.en c.data (c.fileOffset + s.pageOffset + s.offset) 8) < 2 ^ 64 := fun h =>
      hne ⟨_, _, (at2_iff c h0 hm _ _ _ _).2 ⟨h1, rfl, rfl⟩, h⟩
    have e : rd c.en (slice c.data (c.fileOffset + s.pageOffset + s.offset) 8) = field c.en c.data (c.fileOffset + s.pageOffset + s.offset) 8 := rfl
    simp only [e]
    generalize field c.en c.data (c.fileOffset + s.pageOffset + s.offset) 8 = v at *
    have e1 : (v &&& c.deltaMask) >>> trailingZeros c.deltaMask = nextOf c v := rfl
    rw [e1, if_neg (by omega)]
    generalize nextOf c v = nx at *
    rw [if_neg (by simp only [Nat.reducePow] at *; omega)]
    split
    · rw [if_neg (by simp only [Nat.reducePow] at *; omega)]
    · rfl

private theorem toList_append {α : Type} (r : Option α) (xs : List α) : r.toList ++ xs = match r with
    | none => xs
    | some x => x :: xs := by cases r <;> rfl

/-- `next` at a pointer of a chain. -/
private theorem chain2_step (c : Ctx2) (h0 : c.deltaMask ≠ 0) (hm : c.deltaMask < 2 ^ 64) (hl : c.data.length < 2 ^ 63) (s s' : St2)
    (hst : s.state = .page ∨ s.state = .pageExtra) {n : Nat} {r : Option Reloc} (ha : At2 c s.pageOffset s.offset n r) (hb : s.offset + n < 2 ^ 64)
    (hs' : s' = if n = 0 then { s with state := after s.state } else { s with offset := s.offset + n }) {ys : List Reloc} {res : Res (Option Reloc)}
    (hd : Drn c.next s' ys res) : Drn c.next s (r.toList ++ ys) res := by
  have h := (page2 c h0 hm hl s hst).1 n r ha hb
  rw [← step_chain c s hst, ← hs'] at h
  cases r with
  | none => exact drn_congr (next_go h) hd
  | some x => exact drn_cons (next_ret h) hd

private theorem chain2_good {c : Ctx2} (h0 : c.deltaMask ≠ 0) (hm : c.deltaMask < 2 ^ 64) (hl : c.data.length < 2 ^ 63) {po o : Nat}
    {xs : List Reloc} {good : Bool} (h : Chain (At2 c po) o xs good) {ys : List Reloc} {r : Res (Option Reloc)} :
    good = true → ∀ (s : St2), (s.state = .page ∨ s.state = .pageExtra) → s.pageOffset = po → s.offset = o →
      (∀ s' : St2, s'.state = after s.state → s'.startIndex = s.startIndex → s'.extraIndex = s.extraIndex → s'.pageOffset = po →
        Drn c.next s' ys r) → Drn c.next s (xs ++ ys) r := by
  induction h with
  | @last o rel hp =>
    intro _ s hst hpo ho k
    subst hpo ho
    have := hp.1
    exact chain2_step c h0 hm hl s { s with state := after s.state } hst hp (by simp only [Nat.reducePow] at *; omega) (by rw [if_pos rfl])
      (k _ rfl rfl rfl rfl)
  | @step o n rel xs good hp hn hb _ ih =>
    intro hg s hst hpo ho k
    subst hpo ho
    rw [List.append_assoc]
    exact chain2_step c h0 hm hl s { s with offset := s.offset + n } hst hp hb (by rw [if_neg hn]) (ih hg _ hst rfl rfl k)
  | bad _ => intro h; cases h

private theorem chain2_bad {c : Ctx2} (h0 : c.deltaMask ≠ 0) (hm : c.deltaMask < 2 ^ 64) (hl : c.data.length < 2 ^ 63) {po o : Nat}
    {xs : List Reloc} {good : Bool} (h : Chain (At2 c po) o xs good) :
    good = false → ∀ (s : St2), (s.state = .page ∨ s.state = .pageExtra) → s.pageOffset = po → s.offset = o → Drn c.next s xs .err := by
  induction h with
  | last _ => intro h; cases h
  | @step o n rel xs good hp hn hb _ ih =>
    intro hg s hst hpo ho
    subst hpo ho
    exact chain2_step c h0 hm hl s { s with offset := s.offset + n } hst hp hb (by rw [if_neg hn]) (ih hg _ hst rfl rfl)
  | @bad o hn =>
    intro _ s hst hpo ho
    subst hpo ho
    have h := (page2 c h0 hm hl s hst).2 hn
    rw [← step_chain c s hst] at h
    exact drn_stop (next_ret h)

private theorem and3fff (x : Nat) : x &&& 0x3fff = x % 0x4000 := Nat.and_two_pow_sub_one_eq_mod x 14
private theorem and8000 (x : Nat) (h : x < 2 ^ 16) : x &&& 0x8000 ≠ 0 ↔ 0x8000 ≤ x := by
  have := and_two_pow_ne x 15
  simp only [Nat.reducePow] at *
  rw [this, Nat.testBit_eq_decide_div_mod_eq, decide_eq_true_iff]; simp only [Nat.reducePow]; omega
private theorem and4000 (x : Nat) : x &&& 0x4000 ≠ 0 ↔ x / 0x4000 % 2 = 1 := by
  have := and_two_pow_ne x 14
  simp only [Nat.reducePow] at *
  rw [this, Nat.testBit_eq_decide_div_mod_eq, decide_eq_true_iff]

private theorem extra_go (c : Ctx2) (s : St2) (hs : s.state = .extra) {x : Nat} (hx : c.extras[s.extraIndex]? = some x) (h16 : x < 2 ^ 16) :
    c.next s = c.next { s with extraIndex := s.extraIndex + 1, offset := 4 * (x % 0x4000), state := if 0x8000 ≤ x then .page else .pageExtra } := by
  apply next_go
  unfold Ctx2.step
  rw [hs]
  simp only [hx, and3fff, and8000 x h16]
  rw [Nat.mul_comm]

private theorem extras2 {c : Ctx2} (h0 : c.deltaMask ≠ 0) (hm : c.deltaMask < 2 ^ 64) (hl : c.data.length < 2 ^ 63)
    (hx16 : ∀ (i x : Nat), c.extras[i]? = some x → x < 2 ^ 16) {po i : Nat} {xs : List Reloc} {e : Ending} (h : Extras2 c po i xs e) :
    ∀ (s : St2), s.state = .extra → s.pageOffset = po → s.extraIndex = i →
      (e = .done → ∀ (ys : List Reloc) (r : Res (Option Reloc)),
        (∀ s' : St2, s'.state = .start → s'.startIndex = s.startIndex → Drn c.next s' ys r) → Drn c.next s (xs ++ ys) r) ∧
      (e ≠ .done → Drn c.next s xs (endRes e)) := by
  induction h with
  | @last i x xs hx hb hch =>
    intro s hs hpo hi
    subst hi
    refine ⟨fun _ ys r k => ?_, fun h => absurd rfl h⟩
    refine drn_congr (extra_go c s hs hx (hx16 _ _ hx)) ?_
    rw [if_pos hb]
    exact chain2_good h0 hm hl hch rfl _ (.inl rfl) hpo rfl (fun s' k1 k2 _ _ => k s' k1 k2)
  | @more i x xs ys e hx hb hch _ ih =>
    intro s hs hpo hi
    subst hi
    constructor
    · intro he zs r k
      refine drn_congr (extra_go c s hs hx (hx16 _ _ hx)) ?_
      rw [if_neg (by omega), List.append_assoc]
      refine chain2_good h0 hm hl hch rfl _ (.inr rfl) hpo rfl (fun s' k1 k2 k3 k4 => ?_)
      exact (ih s' k1 k4 k3).1 he zs r (fun s'' j1 j2 => k s'' j1 (j2.trans k2))
    · intro he
      refine drn_congr (extra_go c s hs hx (hx16 _ _ hx)) ?_
      rw [if_neg (by omega)]
      refine chain2_good h0 hm hl hch rfl _ (.inr rfl) hpo rfl (fun s' k1 k2 k3 k4 => ?_)
      exact (ih s' k1 k4 k3).2 he
  | @broken i x xs hx hch =>
    intro s hs hpo hi
    subst hi
    refine ⟨fun h => (by cases h), fun _ => ?_⟩
    refine drn_congr (extra_go c s hs hx (hx16 _ _ hx)) ?_
    refine chain2_bad h0 hm hl hch rfl _ ?_ hpo rfl
    simp only []
    by_cases hb : 0x8000 ≤ x
    · exact .inl (if_pos hb)
    · exact .inr (if_neg hb)
  | @missing i hi' =>
    intro s hs hpo hi
    subst hi
    refine ⟨fun h => (by cases h), fun _ => ?_⟩
    refine drn_stop (next_ret ?_)
    unfold Ctx2.step
    rw [hs]
    simp only [List.getElem?_eq_none hi']
    rfl

private theorem start_step (c : Ctx2) (hc : Small c.starts c.pageSize) (s : St2) (hs : s.state = .start) (p : Nat) (hp : s.startIndex = p) {x : Nat} (hx : c.starts[p]? = some x) :
    (x / 0x4000 % 2 = 1 → c.next s = c.next { s with pageOffset := p * c.pageSize, startIndex := p + 1 }) ∧
    (x < 0x4000 → c.next s = c.next { s with pageOffset := p * c.pageSize, startIndex := p + 1, state := .page, offset := 4 * x }) ∧
    (∀ i, i < 0x4000 → x = 0x8000 + i →
      c.next s = c.next { s with pageOffset := p * c.pageSize, startIndex := p + 1, state := .extra, extraIndex := i }) := by
  subst hp
  have hpg := hc.page hx
  have h16 := hc.items _ _ hx
  refine ⟨fun h => ?_, fun h => ?_, fun i hi h => ?_⟩
  · apply next_go
    unfold Ctx2.step
    rw [hs]
    simp only [hx]
    rw [if_neg (by simp only [Nat.reducePow] at *; omega), if_pos ((and4000 x).2 h)]
  · apply next_go
    unfold Ctx2.step
    rw [hs]
    simp only [hx]
    rw [if_neg (by simp only [Nat.reducePow] at *; omega), if_neg (fun h' => by have := (and4000 x).1 h'; omega),
      if_neg (fun h' => by have := (and8000 x h16).1 h'; omega), and3fff, Nat.mod_eq_of_lt h, Nat.mul_comm x 4]
  · apply next_go
    unfold Ctx2.step
    rw [hs]
    simp only [hx]
    rw [if_neg (by simp only [Nat.reducePow] at *; omega), if_neg (fun h' => by have := (and4000 x).1 h'; omega),
      if_pos ((and8000 x h16).2 (by omega)), and3fff, show x % 0x4000 = i by omega]

private theorem pages2 {c : Ctx2} (h0 : c.deltaMask ≠ 0) (hm : c.deltaMask < 2 ^ 64) (hl : c.data.length < 2 ^ 63) (hc : Small c.starts c.pageSize)
    (hx16 : ∀ (i x : Nat), c.extras[i]? = some x → x < 2 ^ 16) {p : Nat} {xs : List Reloc} {e : Ending} (h : Pages2 c p xs e) :
    ∀ (s : St2), s.state = .start → s.startIndex = p → Drn c.next s xs (endRes e) := by
  induction h with
  | done hp =>
    intro s hs h2
    refine drn_stop (next_ret ?_)
    unfold Ctx2.step
    rw [hs]
    simp only [List.getElem?_eq_none (show c.starts.length ≤ s.startIndex by omega)]
    rfl
  | skip hx hb _ ih =>
    intro s hs h2
    exact drn_congr ((start_step c hc s hs _ h2 hx).1 hb) (ih _ hs rfl)
  | page hx hb hch _ ih =>
    intro s hs h2
    refine drn_congr ((start_step c hc s hs _ h2 hx).2.1 hb) ?_
    exact chain2_good h0 hm hl hch rfl _ (.inl rfl) rfl rfl (fun s' k1 k2 _ _ => ih s' k1 k2)
  | broken hx hb hch =>
    intro s hs h2
    refine drn_congr ((start_step c hc s hs _ h2 hx).2.1 hb) ?_
    exact chain2_bad h0 hm hl hch rfl _ (.inl rfl) rfl rfl
  | extras hx hi hex _ ih =>
    intro s hs h2
    refine drn_congr ((start_step c hc s hs _ h2 hx).2.2 _ hi rfl) ?_
    exact (extras2 h0 hm hl hx16 hex _ rfl rfl rfl).1 rfl _ _ (fun s' k1 k2 => ih s' k1 k2)
  | stop hx hi hex he =>
    intro s hs h2
    refine drn_congr ((start_step c hc s hs _ h2 hx).2.2 _ hi rfl) ?_
    exact (extras2 h0 hm hl hx16 hex _ rfl rfl rfl).2 he

private theorem extras2_exists (c : Ctx2) (po : Nat) :
    ∀ (k i : Nat), c.extras.length - i = k → ∃ xs e, Extras2 c po i xs e := by
  intro k
  induction k with
  | zero => intro i hi; exact ⟨_, _, .missing (by omega)⟩
  | succ k ih =>
    intro i hi
    have hx : c.extras[i]? = some (c.extras[i]'(by omega)) := List.getElem?_eq_getElem _
    generalize c.extras[i]'(by omega) = x at hx
    obtain ⟨ys, e, h1⟩ := ih (i + 1) (by omega)
    obtain ⟨xs, good, h2⟩ := chain_exists (P := At2 c po) (len := c.data.length) (fun o n r h => by have := h.1; omega) _ (4 * (x % 0x4000)) rfl
    cases good with
    | false => exact ⟨_, _, .broken hx h2⟩
    | true =>
      by_cases hb : 0x8000 ≤ x
      · exact ⟨_, _, .last hx hb h2⟩
      · exact ⟨_, _, .more hx (by omega) h2 h1⟩

private theorem pages2_exists (c : Ctx2) (hc : Small c.starts c.pageSize) :
    ∀ (k p : Nat), c.starts.length - p = k → ∃ xs e, Pages2 c p xs e := by
  intro k
  induction k with
  | zero => intro p hp; exact ⟨_, _, .done (by omega)⟩
  | succ k ih =>
    intro p hp
    have hx : c.starts[p]? = some (c.starts[p]'(by omega)) := List.getElem?_eq_getElem _
    generalize c.starts[p]'(by omega) = x at hx
    have h16 := hc.items _ _ hx
    obtain ⟨ys, e, h1⟩ := ih (p + 1) (by omega)
    by_cases hb : x / 0x4000 % 2 = 1
    · exact ⟨_, _, .skip hx hb h1⟩
    by_cases hlt : x < 0x4000
    · obtain ⟨xs, good, h2⟩ := chain_exists (P := At2 c (p * c.pageSize)) (len := c.data.length) (fun o n r h => by have := h.1; omega) _ (4 * x) rfl
      cases good with
      | true => exact ⟨_, _, .page hx hlt h2 h1⟩
      | false => exact ⟨_, _, .broken hx hlt h2⟩
    · have ex : x = 0x8000 + (x - 0x8000) := by simp only [Nat.reducePow] at *; omega
      have hi : x - 0x8000 < 0x4000 := by simp only [Nat.reducePow] at *; omega
      rw [ex] at hx
      obtain ⟨xs, e', h2⟩ := extras2_exists c (p * c.pageSize) _ (x - 0x8000) rfl
      by_cases he : e' = .done
      · subst he; exact ⟨_, _, .extras hx hi h2 h1⟩
      · exact ⟨_, _, .stop hx hi h2 he⟩

/-! ## All versions -/

/-- C93: the relocations of a mapping of a dyld cache.  There is slide info if the iterator can be made; the format then gives a list of
relocations and how it ends, and iterating yields exactly these, without a panic, and then an error for ever if a pointer is
broken, and otherwise the end for ever.  (Slide info of version 2 needs a mask that is not 0.) -/
theorem C93_relocations (m : Mapping) (en : Endianness) (data : List UInt8) (hl : data.length < 2 ^ 63) :
    m.relocations en data ≠ .panic ∧ ((∃ it, m.relocations en data = .ok it) ↔ ∃ i, SlideIn en data m.slide i) ∧
    ∀ it, m.relocations en data = .ok it → ∃ i, SlideIn en data m.slide i ∧ ∀ (_ : ∀ ps add st ex, i ≠ .v2 ps 0 add st ex),
      (∃ xs e, RelocsIn en data m.fileOffset i xs e) ∧
      ∀ xs e, RelocsIn en data m.fileOffset i xs e → ∃ s, Yields RelocIt.next it xs s ∧ Stays RelocIt.next s (if e = .bad then .err else .ok none) := by
  refine ⟨Res.bind_no_panic (slide_no_panic m en data) fun _ _ => by simp, ?_, ?_⟩
  · unfold Mapping.relocations
    simp only [Res.bind_eq_ok, slide_iff]
    constructor
    · rintro ⟨it, i, h, -⟩; exact ⟨i, h⟩
    · rintro ⟨i, h⟩; exact ⟨_, i, h, rfl⟩
  · intro it hit
    unfold Mapping.relocations at hit
    rw [Res.bind_eq_ok] at hit
    obtain ⟨i, h1, h2⟩ := hit
    rw [slide_iff] at h1
    refine ⟨i, h1, fun hmask => ?_⟩
    injection h2 with h2
    subst h2
    generalize hms : m.slide = ms at h1
    cases h1 with
    | old =>
      refine ⟨⟨_, _, rfl, rfl⟩, ?_⟩
      rintro xs e ⟨rfl, rfl⟩
      exact drn_stop rfl
    | empty =>
      refine ⟨⟨_, _, rfl, rfl⟩, ?_⟩
      rintro xs e ⟨rfl, rfl⟩
      exact drn_stop rfl
    | @v2 o size starts extras _ _ _ h3 h4 =>
      have k3 := u16s_small h3
      have k4 := u16s_small h4
      have hc : Small starts (field en data (o + 4) 4) := ⟨field4_lt en data _, by rw [k3.1]; exact field4_lt en data _, k3.2⟩
      have h0 : field en data (o + 24) 8 ≠ 0 := fun h => hmask _ _ _ _ (by rw [h])
      refine ⟨pages2_exists ⟨data, en, m.fileOffset, _, _, _, _, _⟩ hc _ 0 rfl, fun xs e h => ?_⟩
      exact drn_map (next' := RelocIt.next) (RelocIt.v2 _) (fun s => rfl)
        (pages2 (c := ⟨data, en, m.fileOffset, _, _, _, _, _⟩) h0 (field8_lt en data _) hl hc k4.2 h ⟨.start, 0, 0, 0, 0⟩ rfl rfl)
    | @v3 o size starts _ _ _ h3 =>
      have k3 := u16s_small h3
      have hc : Small starts (field en data (o + 4) 4) := ⟨field4_lt en data _, by rw [k3.1]; exact field4_lt en data _, k3.2⟩
      refine ⟨pages3_exists ⟨false, data, en, m.fileOffset, _, _, _⟩ _ 0 rfl, fun xs e h => ?_⟩
      exact drn_map (next' := RelocIt.next) (RelocIt.v3 _) (fun s => rfl)
        (pages3 (c := ⟨false, data, en, m.fileOffset, _, _, _⟩) hl hc h ⟨false, 0, 0⟩ rfl rfl)
    | @v5 o size starts _ _ _ h3 =>
      have k3 := u16s_small h3
      have hc : Small starts (field en data (o + 4) 4) := ⟨field4_lt en data _, by rw [k3.1]; exact field4_lt en data _, k3.2⟩
      refine ⟨pages3_exists ⟨true, data, en, m.fileOffset, _, _, _⟩ _ 0 rfl, fun xs e h => ?_⟩
      exact drn_map (next' := RelocIt.next) (RelocIt.v3 _) (fun s => rfl)
        (pages3 (c := ⟨true, data, en, m.fileOffset, _, _, _⟩) hl hc h ⟨false, 0, 0⟩ rfl rfl)

/-! ## Examples -/

private def w2 (n : Nat) : List UInt8 := wr .little 2 n
private def w4 (n : Nat) : List UInt8 := wr .little 4 n
private def w8 (n : Nat) : List UInt8 := wr .little 8 n

/-- What the first calls of `next` give. -/
private def calls : Nat → RelocIt → List (Res (Option Reloc))
  | 0, _ => []
  | n + 1, it => it.next.1 :: calls n it.next.2

private def relocs (m : Mapping) (data : List UInt8) (n : Nat) : List (Res (Option Reloc)) :=
  match m.relocations .little data with
  | .ok it => calls n it
  | _ => []

/-- Slide info of version 3 at 32: two pages of 16 bytes, where the first has two pointers, and the second none. -/
private def d3 : List UInt8 :=
  w8 (0x1000 + 1 * 2 ^ 51) ++ w8 (0x20 + 0x1234 * 2 ^ 32 + 2 ^ 48 + 2 * 2 ^ 49 + 2 ^ 63) ++ w8 0 ++ w8 0 ++
  (w4 3 ++ w4 16 ++ w4 2 ++ w4 0 ++ w8 0x180000000) ++ w2 0 ++ w2 0xffff

example : relocs ⟨0x180000000, 32, 0, 3, 3, some (32, 28)⟩ d3 4 =
    [.ok (some ⟨0, 0x1000, none⟩), .ok (some ⟨8, 0x180000020, some ⟨.da, 0x1234, true⟩⟩), .ok none, .ok none] := by decide +kernel

/-- Slide info of version 2 at 32: the first page has two extra starts, and the second a chain of two pointers, of which one is empty; the offset
in the last relocation is that in the page. -/
private def d2 (mask : Nat) : List UInt8 :=
  w8 0x11 ++ w8 0x12 ++ w8 (2 * 2 ^ 40) ++ w8 0x13 ++
  (w4 2 ++ w4 16 ++ w4 40 ++ w4 2 ++ w4 44 ++ w4 2 ++ w8 mask ++ w8 0x180000000) ++ w2 0x8000 ++ w2 0 ++ w2 2 ++ w2 0x8000

/-- The loop of version 2 with a bound (`Ctx2.next` is defined by well-founded recursion and does not evaluate). -/
private def nextF : Nat → Ctx2 → St2 → Option (Res (Option Reloc) × St2)
  | 0, _, _ => none
  | n + 1, c, s => match c.step s with
    | .ret r s' => some (r, s')
    | .go s' => nextF n c s'

private theorem nextF_eq {n : Nat} {c : Ctx2} {s : St2} {x : Res (Option Reloc) × St2} (h : nextF n c s = some x) : c.next s = x := by
  induction n generalizing s with
  | zero => cases h
  | succ n ih =>
    unfold nextF at h
    cases hs : c.step s with
    | ret r s' => rw [hs] at h; injection h with h; rw [next_ret hs, h]
    | go s' => rw [hs] at h; rw [next_go hs]; exact ih h

private def callsF : Nat → RelocIt → Option (List (Res (Option Reloc)))
  | 0, _ => some []
  | n + 1, .v2 c s => match nextF 20 c s with
    | some x => (callsF n (.v2 c x.2)).map (x.1 :: ·)
    | none => none
  | _, _ => none

private theorem callsF_eq {n : Nat} {it : RelocIt} {l : List (Res (Option Reloc))} (h : callsF n it = some l) : calls n it = l := by
  induction n generalizing it l with
  | zero => injection h
  | succ n ih =>
    cases it with
    | none => cases h
    | v3 c s => cases h
    | v2 c s =>
      unfold callsF at h
      cases hs : nextF 20 c s with
      | none => rw [hs] at h; cases h
      | some x =>
        rw [hs] at h
        simp only [Option.map_eq_some_iff] at h
        obtain ⟨l', h1, rfl⟩ := h
        have e : (RelocIt.v2 c s).next = (x.1, .v2 c x.2) := by
          rw [← nextF_eq hs]; rfl
        unfold calls
        rw [e, ih h1]

private theorem relocs_eq {m : Mapping} {data : List UInt8} {n : Nat} {l : List (Res (Option Reloc))}
    (h : (match m.relocations .little data with
      | .ok it => callsF n it
      | _ => none) = some l) : relocs m data n = l := by
  unfold relocs
  cases hr : m.relocations .little data with
  | ok it => rw [hr] at h; exact callsF_eq h
  | err => rw [hr] at h; cases h
  | panic => rw [hr] at h; cases h

example : relocs ⟨0x180000000, 32, 0, 3, 3, some (32, 48)⟩ (d2 (0xffff * 2 ^ 40)) 5 =
    [.ok (some ⟨8, 0x180000012, none⟩), .ok (some ⟨0, 0x180000011, none⟩), .ok (some ⟨8, 0x180000013, none⟩), .ok none, .ok none] :=
  relocs_eq (by decide +kernel)

/-- A mask of 0 makes the shift overflow: a panic in a build with overflow checks. -/
example : relocs ⟨0x180000000, 32, 0, 3, 3, some (32, 48)⟩ (d2 0) 1 = [.panic] := relocs_eq (by decide +kernel)

end Obj.Props
