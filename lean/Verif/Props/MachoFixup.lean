import Verif.Proof.MachoFixup
import Verif.Proof.MachoReloc
import Verif.Proof.Pe
import Verif.Proof.Util
import Verif.Drain

/-! # C81: Mach-O chained fixups -/

namespace Obj.Props
open Obj Obj.Fixup Obj.Spec.Fixup
open Obj.Spec.Pe (CStrAt)

private theorem fieldSlice (en : Endianness) (data : List UInt8) (o n off w : Nat) (h : off + w ≤ n) :
    field en (slice data o n) off w = field en data (o + off) w := by
  have := slice_slice data o n off w h
  unfold field
  exact congrArg (rd en) this

private theorem fieldDrop (en : Endianness) (data : List UInt8) (pos off w : Nat) :
    field en (data.drop pos) off w = field en data (pos + off) w := by
  simp [field, List.drop_drop]

private theorem bytesAt (d : List UInt8) (o n : Nat) : Bytes.readAt d o n = if o + n ≤ d.length then .ok (slice d o n) else .err := by
  unfold Bytes.readAt Bytes.readBytesAt Bytes.skip Bytes.readBytes slice
  by_cases h : o ≤ d.length
  · rw [if_pos h]
    simp only [List.length_drop]
    by_cases h2 : n ≤ d.length - o
    · rw [if_pos h2, if_pos (by omega)]
    · rw [if_neg h2, if_neg (by omega)]
  · rw [if_neg h, if_neg (by omega)]

/-! ## Pointers -/

/-- **C81.** Decoding a pointer never panics, and for every pointer format and every value gives exactly the fixup and the distance
that the layout of the format says (unknown formats are errors). -/
theorem C81_pointer (format v base : Nat) (hv : v < 256 ^ ptrSize format) :
    Fix.parse format v base ≠ .panic ∧ ∀ n f, Fix.parse format v base = .ok (n, f) ↔ Decodes base format v n f :=
  ⟨parse_no_panic _ _ _, fun n f => parse_iff format v base n f hv⟩

/-- **C81.** Every value of a known format is a fixup, so an encoded pointer is decoded to what was encoded, and nothing else. -/
theorem C81_pointer_total (format v base : Nat) (hv : v < 256 ^ ptrSize format) (hf : 1 ≤ format) (hf' : format ≤ 14) :
    ∃ n f, Decodes base format v n f ∧ n < 2 ^ 15 ∧ ∀ n' f', Decodes base format v n' f' → n' = n ∧ f' = f := by
  have hok : ∃ x, Fix.parse format v base = .ok x := by
    have hcases : format = 1 ∨ format = 2 ∨ format = 3 ∨ format = 4 ∨ format = 5 ∨ format = 6 ∨ format = 7 ∨ format = 8 ∨ format = 9 ∨
      format = 10 ∨ format = 11 ∨ format = 12 ∨ format = 13 ∨ format = 14 := by omega
    rcases hcases with rfl | rfl | rfl | rfl | rfl | rfl | rfl | rfl | rfl | rfl | rfl | rfl | rfl | rfl <;> exact ⟨_, rfl⟩
  obtain ⟨⟨n, f⟩, h⟩ := hok
  refine ⟨n, f, (parse_iff _ _ _ _ _ hv).1 h, parse_small h, fun n' f' h' => ?_⟩
  have h2 := (parse_iff _ _ _ _ _ hv).2 h'
  rw [h] at h2
  injection h2 with h2
  injection h2 with h3 h4
  exact ⟨h3.symm, h4.symm⟩

/-- **C81.** A rebase target that is not below the preferred load address is its offset from there, with the top byte in the top. -/
theorem C81_target (target base high8 : Nat) (h : base ≤ target) (ht : target - base < 2 ^ 56) :
    withTop target base high8 = (target - base) + high8 * 2 ^ 56 := by
  unfold withTop
  have e : (target + 2 ^ 64 - base) % 2 ^ 64 = target - base := by
    simp only [Nat.reducePow] at *
    omega
  have h1 := Nat.two_pow_add_eq_or_of_lt (i := 56) (b := target - base) ht high8
  rw [e, Nat.mul_comm, Nat.or_comm, ← h1, Nat.add_comm]

/-! ## Chains -/

private theorem pointer_eq (c : Ctx) (o : Nat) : pointer c o =
    if o + ptrSize c.format ≤ c.seg.length then .ok (field c.en c.seg o (ptrSize c.format)) else .err := by
  unfold pointer ptrSize
  by_cases h : c.format = 3 ∨ c.format = 4 ∨ c.format = 5
  · rw [if_pos h, if_pos h, bytesAt]
    by_cases h2 : o + 4 ≤ c.seg.length
    · rw [if_pos h2, if_pos h2]; rfl
    · rw [if_neg h2, if_neg h2]; rfl
  · rw [if_neg h, if_neg h, bytesAt]
    by_cases h2 : o + 8 ≤ c.seg.length
    · rw [if_pos h2, if_pos h2]; rfl
    · rw [if_neg h2, if_neg h2]; rfl

private def InChain (s : St) : Prop := s.state = .page ∨ s.state = .pageChain

private theorem next_inChain (c : Ctx) (s : St) (hs : InChain s) : c.next s =
    match pageNext c s with
    | (.err, s') => (.err, { s' with state := .start, pageIndex := c.pageCount })
    | r => r := by
  unfold Ctx.next nextInner
  rcases hs with h | h <;> rw [h] <;> rfl

private theorem next_last (c : Ctx) (s : St) (f : Fix) (hs : InChain s) (h : PtrAt c s.offset 0 f) :
    c.next s = (.ok (some (s.offset, f)), { s with state := if s.state = .pageChain then .chain else .start }) := by
  rw [next_inChain c s hs]
  unfold pageNext
  rw [pointer_eq, if_pos h.1]
  dsimp only
  rw [(parse_iff _ _ _ _ _ (field_lt ..)).2 h.2]
  rfl

private theorem next_step (c : Ctx) (s : St) (n : Nat) (f : Fix) (hl : c.seg.length < 2 ^ 63) (hs : InChain s) (h : PtrAt c s.offset n f)
    (hn : n ≠ 0) : c.next s = (.ok (some (s.offset, f)), { s with offset := s.offset + n }) := by
  rw [next_inChain c s hs]
  unfold pageNext
  rw [pointer_eq, if_pos h.1]
  dsimp only
  have hp := (parse_iff _ _ _ _ _ (field_lt ..)).2 h.2
  have := parse_small hp
  have := h.1
  rw [hp]
  dsimp only
  rw [if_neg hn, if_pos (by omega)]

private theorem next_bad (c : Ctx) (s : St) (hs : InChain s) (h : ¬ ∃ n f, PtrAt c s.offset n f) :
    c.next s = (.err, { s with state := .start, pageIndex := c.pageCount }) := by
  rw [next_inChain c s hs]
  unfold pageNext
  rw [pointer_eq]
  by_cases h2 : s.offset + ptrSize c.format ≤ c.seg.length
  · rw [if_pos h2]
    dsimp only
    cases hp : Fix.parse c.format (field c.en c.seg s.offset (ptrSize c.format)) c.vmaddr with
    | ok x => exact absurd ⟨x.1, x.2, h2, (parse_iff _ _ _ _ _ (field_lt ..)).1 hp⟩ h
    | err => rfl
    | panic => exact absurd hp (parse_no_panic _ _ _)
  · rw [if_neg h2]

private theorem next_end (c : Ctx) (s : St) (hs : s.state = .start) (hp : c.pageCount ≤ s.pageIndex) : c.next s = (.ok none, s) := by
  unfold Ctx.next nextInner
  rw [hs]
  dsimp only
  unfold startNext
  rw [dif_pos hp]

private theorem drains_err {c : Ctx} {s s' : St} (h : c.next s = (.err, { s' with state := .start, pageIndex := c.pageCount })) :
    Drains c.next s [.err] := .err h (.done (next_end c _ rfl (Nat.le_refl _)))

private theorem chain_drains {c : Ctx} (hl : c.seg.length < 2 ^ 63) {o : Nat} {xs : List (Nat × Fix)} {good : Bool} (h : Chain c o xs good) :
    ∀ (s : St) (rest : List (Res (Nat × Fix))), InChain s → s.offset = o → (good = false → rest = [.err]) →
      (good = true → ∀ s' : St, s'.state = (if s.state = .pageChain then .chain else .start) → s'.pageIndex = s.pageIndex →
        s'.chainIndex = s.chainIndex → s'.pageOffset = s.pageOffset → Drains c.next s' rest) →
      Drains c.next s (xs.map .ok ++ rest) := by
  induction h with
  | @last o f hp =>
    rintro s rest hs rfl - hk
    exact .item (next_last c s _ hs hp) (hk rfl _ rfl rfl rfl rfl)
  | @step o n f xs good hp hn _ ih =>
    rintro s rest hs rfl hb hk
    exact .item (next_step c s n f hl hs hp hn) (ih { s with offset := s.offset + n } rest hs rfl hb hk)
  | @bad o hp =>
    rintro s rest hs rfl hb -
    rw [hb rfl]
    exact drains_err (next_bad c s hs hp)

private theorem next_chain (c : Ctx) (s : St) (hs : s.state = .chain) (x : Nat) (hx : c.starts[s.chainIndex]? = some x) :
    c.next s = c.next { s with
      chainIndex := s.chainIndex + 1
      offset := s.pageOffset + (x &&& 0x7fff)
      state := if x &&& 0x8000 ≠ 0 then .page else .pageChain } := by
  rw [next_inChain c { s with
      chainIndex := s.chainIndex + 1
      offset := s.pageOffset + (x &&& 0x7fff)
      state := if x &&& 0x8000 ≠ 0 then .page else .pageChain } (by
        unfold InChain; dsimp only; by_cases h : x &&& 0x8000 ≠ 0
        · rw [if_pos h]; exact .inl rfl
        · rw [if_neg h]; exact .inr rfl)]
  unfold Ctx.next nextInner
  rw [hs]
  dsimp only
  unfold chainNext
  rw [hx]
  rfl

private theorem top_bit (x : Nat) (hx : x < 65536) : (x &&& 0x8000 ≠ 0 ↔ 0x8000 ≤ x) ∧ x &&& 0x7fff = x % 0x8000 := by
  refine ⟨?_, Nat.and_two_pow_sub_one_eq_mod x 15⟩
  have h : x &&& 0x8000 = if x.testBit 15 then 0x8000 else 0 := by
    apply Nat.eq_of_testBit_eq
    intro i
    rw [Nat.testBit_and, show (0x8000 : Nat) = 2 ^ 15 from rfl, Nat.testBit_two_pow]
    by_cases hi : 15 = i
    · subst hi
      cases x.testBit 15
      · simp
      · simp only [decide_true, Bool.and_true, if_true]; rfl
    · cases x.testBit 15
      · simp [hi]
      · simp only [hi, decide_false, Bool.and_false, if_true]
        rw [Nat.testBit_two_pow]
        simp [hi]
  have h2 : x.testBit 15 = decide (0x8000 ≤ x) := by
    rw [Nat.testBit_eq_decide_div_mod_eq]
    congr 1
    rw [eq_iff_iff]
    simp only [Nat.reducePow]
    omega
  rw [h, h2]
  by_cases h3 : 0x8000 ≤ x <;> simp [h3]

private theorem chains_drains {c : Ctx} (hl : c.seg.length < 2 ^ 63) (hst : ∀ x ∈ c.starts, x < 65536) {po i : Nat} {xs : List (Nat × Fix)}
    {good : Bool} (h : Chains c po i xs good) :
    ∀ (s : St) (rest : List (Res (Nat × Fix))), s.state = .chain → s.chainIndex = i → s.pageOffset = po → (good = false → rest = [.err]) →
      (good = true → ∀ s' : St, s'.state = .start → s'.pageIndex = s.pageIndex → Drains c.next s' rest) →
      Drains c.next s (xs.map .ok ++ rest) := by
  induction h with
  | @last i x xs good hx hc =>
    rintro s rest hs rfl rfl hb hk
    have hlt := hst _ (List.mem_of_getElem? hx)
    have ⟨hb1, hb2⟩ := top_bit _ hlt
    refine Drains.congr (next_chain c s hs _ hx) ?_
    rw [if_pos (hb1.2 (by omega)), hb2]
    refine chain_drains hl hc _ rest (.inl rfl) ?_ hb ?_
    · dsimp only; omega
    · intro hg s' h1 h2 _ _
      exact hk hg s' h1 h2
  | @more i x xs ys good hx hlt hc _ ih =>
    rintro s rest hs rfl rfl hb hk
    have ⟨hb1, hb2⟩ := top_bit x (by omega)
    refine Drains.congr (next_chain c s hs _ hx) ?_
    rw [if_neg (fun h => by have := hb1.1 h; omega), hb2, List.map_append, List.append_assoc]
    refine chain_drains hl hc _ _ (.inr rfl) ?_ (by simp) ?_
    · dsimp only; omega
    · intro _ s' h1 h2 h3 h4
      exact ih s' rest h1 h3 h4 hb (fun hg s'' k1 k2 => hk hg s'' k1 (k2.trans h2))
  | @broken i x xs hx hlt hc =>
    rintro s rest hs rfl rfl hb hk
    have ⟨hb1, hb2⟩ := top_bit x (by omega)
    refine Drains.congr (next_chain c s hs _ hx) ?_
    rw [if_neg (fun h => by have := hb1.1 h; omega), hb2]
    refine chain_drains hl hc _ rest (.inr rfl) ?_ hb (by simp)
    · dsimp only; omega
  | @missing i hi =>
    rintro s rest hs rfl rfl hb hk
    rw [hb rfl]
    refine drains_err (s' := s) ?_
    unfold Ctx.next nextInner
    rw [hs]
    dsimp only
    unfold chainNext
    rw [List.getElem?_eq_none hi]

private theorem next_start (c : Ctx) (s : St) (hs : s.state = .start) (hp : s.pageIndex < c.pageCount) (x : Nat)
    (hx : c.starts[s.pageIndex]? = some x) (hlt : x < 65536) :
    c.next s = c.next (if x = 0xffff then { s with pageOffset := s.pageIndex * c.pageSize, pageIndex := s.pageIndex + 1 }
      else if 0x8000 ≤ x then
        { s with pageOffset := s.pageIndex * c.pageSize, pageIndex := s.pageIndex + 1, state := .chain, chainIndex := x - 0x8000 }
      else { s with pageOffset := s.pageIndex * c.pageSize, pageIndex := s.pageIndex + 1, state := .page, offset := s.pageIndex * c.pageSize + x }) := by
  have ⟨hb1, hb2⟩ := top_bit x hlt
  have e : nextInner c s = startNext c s := by unfold nextInner; rw [hs]
  have e2 := startNext.eq_def c s
  rw [dif_neg (by omega), hx] at e2
  dsimp only at e2
  unfold Ctx.next
  rw [e, e2]
  by_cases h1 : x = 0xffff
  · rw [if_pos h1, if_pos h1]
    unfold nextInner
    rw [hs]
  · rw [if_neg h1, if_neg h1]
    by_cases h2 : 0x8000 ≤ x
    · rw [if_pos (hb1.2 h2), if_pos h2]
      have e3 : x &&& 0x7fff = x - 0x8000 := by omega
      rw [e3]
      rfl
    · rw [if_neg (fun h => h2 (hb1.1 h)), if_neg h2]
      rfl

private theorem page_drains {c : Ctx} (hl : c.seg.length < 2 ^ 63) (hst : ∀ x ∈ c.starts, x < 65536) {p : Nat} {xs : List (Nat × Fix)}
    {good : Bool} (h : Page c p xs good) (hp : p < c.pageCount) (s : St) (rest : List (Res (Nat × Fix))) (hs : s.state = .start)
    (hi : s.pageIndex = p) (hb : good = false → rest = [.err])
    (hk : good = true → ∀ s' : St, s'.state = .start → s'.pageIndex = p + 1 → Drains c.next s' rest) :
    Drains c.next s (xs.map .ok ++ rest) := by
  subst hi
  cases h with
  | none hx =>
    refine Drains.congr (next_start c s hs hp _ hx (by decide)) ?_
    rw [if_pos rfl]
    exact hk rfl _ hs rfl
  | @single x _ _ hx hlt hc =>
    refine Drains.congr (next_start c s hs hp _ hx (by omega)) ?_
    rw [if_neg (by omega), if_neg (by omega)]
    exact chain_drains hl hc _ rest (.inl rfl) rfl hb (fun hg s' h1 h2 _ _ => hk hg s' h1 h2)
  | @multi i _ _ hx hne hc =>
    have hlt := hst _ (List.mem_of_getElem? hx)
    refine Drains.congr (next_start c s hs hp _ hx hlt) ?_
    rw [if_neg (by omega), if_pos (by omega)]
    refine chains_drains hl hst hc _ rest rfl ?_ rfl hb (fun hg s' h1 h2 => hk hg s' h1 h2)
    dsimp only; omega
  | missing hx =>
    rw [hb rfl]
    refine drains_err (s' := s) ?_
    unfold Ctx.next nextInner
    rw [hs]
    dsimp only
    rw [startNext.eq_def, dif_neg (by omega), List.getElem?_eq_none hx]

private theorem pages_drains {c : Ctx} (hl : c.seg.length < 2 ^ 63) (hst : ∀ x ∈ c.starts, x < 65536) {p : Nat} {xs : List (Nat × Fix)}
    {good : Bool} (h : Pages c p xs good) :
    ∀ s : St, s.state = .start → s.pageIndex = p → Drains c.next s (xs.map .ok ++ if good then [] else [.err]) := by
  induction h with
  | done hp =>
    rintro s hs rfl
    exact .done (next_end c s hs hp)
  | @page p xs ys good hp hpg _ ih =>
    rintro s hs rfl
    rw [List.map_append, List.append_assoc]
    exact page_drains hl hst hpg hp s _ hs rfl (by simp) (fun _ s' h1 h2 => ih s' h1 h2)
  | @broken p xs hp hpg =>
    rintro s hs rfl
    exact page_drains hl hst hpg hp s _ hs rfl (by simp) (by simp)

private theorem chain_exists (c : Ctx) (o : Nat) : ∃ xs good, Chain c o xs good := by
  generalize hn : c.seg.length - o = n
  induction n using Nat.strongRecOn generalizing o with
  | _ n ih =>
    by_cases h : ∃ next f, PtrAt c o next f
    · obtain ⟨next, f, h⟩ := h
      by_cases h0 : next = 0
      · subst h0
        exact ⟨_, _, .last h⟩
      · have := h.1
        have : 0 < ptrSize c.format := by unfold ptrSize; split <;> decide
        obtain ⟨xs, good, hc⟩ := ih (c.seg.length - (o + next)) (by omega) (o + next) rfl
        exact ⟨_, _, .step h h0 hc⟩
    · exact ⟨_, _, .bad h⟩

private theorem chains_exists (c : Ctx) (po i : Nat) : ∃ xs good, Chains c po i xs good := by
  generalize hn : c.starts.length - i = n
  induction n generalizing i with
  | zero => exact ⟨_, _, .missing (by omega)⟩
  | succ n ih =>
    have hx : c.starts[i]? = some c.starts[i] := List.getElem?_eq_getElem (by omega)
    generalize c.starts[i] = x at hx
    by_cases hb : 0x8000 ≤ x
    · obtain ⟨xs, good, hc⟩ := chain_exists c (po + (x - 0x8000))
      exact ⟨xs, good, .last (by rw [hx, Nat.add_sub_cancel' hb]) hc⟩
    · obtain ⟨xs, good, hc⟩ := chain_exists c (po + x)
      cases good with
      | true =>
        obtain ⟨ys, good, hd⟩ := ih (i + 1) (by omega)
        exact ⟨_, _, .more hx (by omega) hc hd⟩
      | false => exact ⟨_, _, .broken hx (by omega) hc⟩

private theorem page_exists (c : Ctx) (p : Nat) : ∃ xs good, Page c p xs good := by
  by_cases h : c.starts.length ≤ p
  · exact ⟨_, _, .missing h⟩
  · have hx : c.starts[p]? = some c.starts[p] := List.getElem?_eq_getElem (by omega)
    generalize c.starts[p] = x at hx
    by_cases h1 : x = 0xffff
    · subst h1; exact ⟨_, _, .none hx⟩
    · by_cases hb : 0x8000 ≤ x
      · obtain ⟨xs, good, hc⟩ := chains_exists c (p * c.pageSize) (x - 0x8000)
        exact ⟨xs, good, .multi (by rw [hx, Nat.add_sub_cancel' hb]) (by omega) hc⟩
      · obtain ⟨xs, good, hc⟩ := chain_exists c (p * c.pageSize + x)
        exact ⟨_, _, .single hx (by omega) hc⟩

private theorem pages_exists (c : Ctx) (p : Nat) : ∃ xs good, Pages c p xs good := by
  generalize hn : c.pageCount - p = n
  induction n generalizing p with
  | zero => exact ⟨_, _, .done (by omega)⟩
  | succ n ih =>
    obtain ⟨xs, good, hp⟩ := page_exists c p
    cases good with
    | true =>
      obtain ⟨ys, good, hd⟩ := ih (p + 1) (by omega)
      exact ⟨_, _, .page (by omega) hp hd⟩
    | false => exact ⟨_, _, .broken (by omega) hp⟩

/-- **C81.** Iterating over the fixups of a segment ends without a panic, whatever the chain starts and the segment data: it gives
exactly the fixups of the chains of the pages, in order, and then, if a chain is broken, one error. -/
theorem C81_fixups (en : Endianness) (data : List UInt8) (o : Nat) (sg : Seg) (h : SegIn en data o sg) (vmaddr : Nat) (seg : List UInt8)
    (hl : seg.length < 2 ^ 63) :
    (∃ xs good, Pages (sg.ctx en vmaddr seg) 0 xs good) ∧
    ∀ xs good, Pages (sg.ctx en vmaddr seg) 0 xs good →
      Drains (sg.ctx en vmaddr seg).next St.init (xs.map .ok ++ if good then [] else [.err]) := by
  refine ⟨pages_exists _ 0, fun xs good hp => pages_drains hl ?_ hp St.init rfl rfl⟩
  intro x hx
  have hx' : x ∈ sg.starts := hx
  rw [h.starts, List.mem_map] at hx'
  obtain ⟨i, _, rfl⟩ := hx'
  exact field_lt ..

/-! ## The header -/

/-- **C81.** Parsing the data of the load command never panics, and succeeds exactly if the header is inside and has version 0. -/
theorem C81_parse (en : Endianness) (data : List UInt8) :
    Fixups.parse en data ≠ .panic ∧ ∀ f, Fixups.parse en data = .ok f ↔ f.data = data ∧ HeaderIn en data f.header := by
  unfold Fixups.parse
  rw [bytesAt]
  by_cases h : 0 + 28 ≤ data.length
  rotate_left
  · rw [if_neg h]
    refine ⟨by simp, fun f => ?_⟩
    simp only [Res.err_bind, reduceCtorEq, false_iff]
    rintro ⟨-, hh⟩
    have := hh.inside
    omega
  rw [if_pos h, Res.ok_bind]
  have hf : ∀ off w, off + w ≤ 28 → field en (slice data 0 28) off w = field en data off w := by
    intro off w h
    rw [fieldSlice en data 0 28 off w h, Nat.zero_add]
  rw [hf _ _ (by decide), hf _ _ (by decide), hf _ _ (by decide), hf _ _ (by decide), hf _ _ (by decide), hf _ _ (by decide), hf _ _ (by decide)]
  by_cases hv : field en data 0 4 = 0
  rotate_left
  · rw [if_pos hv]
    refine ⟨by simp, fun f => ?_⟩
    simp only [reduceCtorEq, false_iff]
    rintro ⟨-, hh⟩
    exact hv hh.version
  rw [if_neg (fun h => h hv)]
  refine ⟨by simp, fun f => ?_⟩
  constructor
  · intro e
    injection e with e
    subst e
    exact ⟨rfl, by omega, hv, rfl, rfl, rfl, rfl, rfl, rfl⟩
  · obtain ⟨d, ⟨a1, a2, a3, a4, a5, a6⟩⟩ := f
    rintro ⟨h0, hh⟩
    obtain ⟨-, -, h1, h2, h3, h4, h5, h6⟩ := hh
    dsimp only at *
    subst h0 h1 h2 h3 h4 h5 h6
    rfl

/-- **C81.** The load command refers to the data at its offset with its size. -/
theorem C81_chained_fixups (en : Endianness) (file : List UInt8) (dataoff datasize : Nat) (h : 0 < datasize) :
    chainedFixups en file dataoff datasize ≠ .panic ∧ ∀ f, chainedFixups en file dataoff datasize = .ok f ↔
      dataoff + datasize ≤ file.length ∧ f.data = slice file dataoff datasize ∧ HeaderIn en (slice file dataoff datasize) f.header := by
  unfold chainedFixups
  rw [readRef_readBytesAt_pos h]
  by_cases hin : dataoff + datasize ≤ file.length
  · rw [if_pos hin, Res.ok_bind]
    refine ⟨(C81_parse en _).1, fun f => ?_⟩
    rw [(C81_parse en _).2 f]
    simp [hin]
  · rw [if_neg hin]
    refine ⟨by simp, fun f => ?_⟩
    simp only [Res.err_bind, reduceCtorEq, false_iff]
    rintro ⟨h1, -⟩
    exact hin h1

/-! ## Imports -/

private theorem read_drop (d : List UInt8) (o n : Nat) (hn : 0 < n) :
    Bytes.read (d.drop o) n = if o + n ≤ d.length then (.ok (slice d o n), d.drop (o + n)) else (.err, []) := by
  unfold Bytes.read Bytes.readBytes
  rw [List.length_drop]
  by_cases h : o + n ≤ d.length
  · rw [if_pos h, if_pos (by omega), List.drop_drop]; rfl
  · rw [if_neg h, if_neg (by omega)]

private theorem signed4 (w : Nat) (hw : w < 2 ^ 32) (a : Int) :
    toSigned 4 w = a ↔ -2 ^ 31 ≤ a ∧ a < 2 ^ 31 ∧ (a % 2 ^ 32).toNat = w := by
  unfold toSigned
  simp only [Nat.reducePow, Int.reducePow, Nat.reduceDiv] at *
  split <;> omega

private theorem signed8 (w : Nat) (hw : w < 2 ^ 64) (a : Int) :
    toI64 w = a ↔ -2 ^ 63 ≤ a ∧ a < 2 ^ 63 ∧ (a % 2 ^ 64).toNat = w := by
  unfold toI64
  simp only [Nat.reducePow, Int.reducePow] at *
  split <;> omega

private theorem dylib32_iff (v : Nat) (d : Int) : dylib32 v = d ↔ Dylib 8 (v % 256) d := by
  unfold dylib32 Dylib toSigned
  rw [and8]
  have := Nat.mod_lt v (show 256 > 0 by decide)
  simp only [Nat.reducePow, Int.reducePow, Nat.reduceDiv]
  by_cases h : 0xf0 < v % 256
  · rw [if_pos h, if_neg (by omega), if_neg (by omega)]
    simp [this, eq_comm]
  · rw [if_neg h, if_pos (by omega)]
    simp [this, eq_comm]

private theorem dylib64_iff (v : Nat) (d : Int) : dylib64 v = d ↔ Dylib 16 (v % 65536) d := by
  unfold dylib64 Dylib toSigned
  rw [and16]
  have := Nat.mod_lt v (show 65536 > 0 by decide)
  simp only [Nat.reducePow, Int.reducePow, Nat.reduceDiv]
  by_cases h : 0xfff0 < v % 65536
  · rw [if_pos h, if_neg (by omega), if_neg (by omega)]
    simp [this, eq_comm]
  · rw [if_neg h, if_pos (by omega)]
    simp [this, eq_comm]

private theorem entry32 (v : Nat) (lib nameOff : Nat) (weak : Bool) (hl : lib < 256) :
    (v = lib + bit weak * 2 ^ 8 + nameOff * 2 ^ 9) ↔ lib = v % 256 ∧ weak = (v / 256 % 2 != 0) ∧ nameOff = v / 512 := by
  cases weak
  · simp only [bit, Nat.reducePow, Bool.false_eq_true, if_false]
    simp only [eq_comm (a := false), bne_eq_false_iff_eq]
    omega
  · simp only [bit, Nat.reducePow, if_true]
    simp only [eq_comm (a := true), bne_iff_ne, ne_eq]
    omega

private theorem entry64 (v : Nat) (lib nameOff : Nat) (weak : Bool) (hl : lib < 65536) :
    (∃ reserved, reserved < 2 ^ 15 ∧ v = lib + bit weak * 2 ^ 16 + reserved * 2 ^ 17 + nameOff * 2 ^ 32) ↔
      lib = v % 65536 ∧ weak = (v / 65536 % 2 != 0) ∧ nameOff = v / 4294967296 := by
  cases weak
  · simp only [bit, Nat.reducePow, Bool.false_eq_true, if_false]
    simp only [eq_comm (a := false), bne_eq_false_iff_eq]
    constructor
    · rintro ⟨r, hr, h⟩; omega
    · intro h; exact ⟨v / 131072 % 32768, by omega, by omega⟩
  · simp only [bit, Nat.reducePow, if_true]
    simp only [eq_comm (a := true), bne_iff_ne, ne_eq]
    constructor
    · rintro ⟨r, hr, h⟩; omega
    · intro h; exact ⟨v / 131072 % 32768, by omega, by omega⟩

private theorem slice_rd (en : Endianness) (d : List UInt8) (o n : Nat) : rd en (slice d o n) = field en d o n := rfl

private theorem entry_spec (en : Endianness) (format : Nat) (t : List UInt8) (o : Nat) :
    ((entry en format (t.drop o)).1 = .err ∧ ¬ ∃ d w n a, EntryAt en t o format d w n a) ∨
    ∃ d w n a, entry en format (t.drop o) = (.ok (d, w, n, a), t.drop (o + entrySize format)) ∧
      ∀ d' w' n' a', EntryAt en t o format d' w' n' a' ↔ d' = d ∧ w' = w ∧ n' = n ∧ a' = a := by
  unfold entry
  by_cases h1 : format = 1
  · subst h1
    rw [if_pos (.inl rfl), read_drop _ _ _ (by decide)]
    by_cases hin : o + 4 ≤ t.length
    · rw [if_pos hin]
      right
      refine ⟨_, _, _, _, rfl, ?_⟩
      intro d w n a
      simp only [Nat.shiftRight_eq_div_pow, and1, Nat.reducePow, slice_rd]
      constructor
      · intro h
        cases h with
        | @plain lib _ _ _ h1 h2 h3 =>
          obtain ⟨rfl, rfl, rfl⟩ := (entry32 _ lib n w h2.1).1 h3
          exact ⟨((dylib32_iff _ _).2 h2).symm, rfl, rfl, rfl⟩
      · rintro ⟨rfl, rfl, rfl, rfl⟩
        exact .plain hin ((dylib32_iff _ _).1 rfl) ((entry32 _ _ _ _ (Nat.mod_lt _ (by decide))).2 ⟨rfl, rfl, rfl⟩)
    · rw [if_neg hin]
      left
      refine ⟨rfl, ?_⟩
      rintro ⟨d, w, n, a, h⟩
      cases h
      omega
  by_cases h2 : format = 2
  · subst h2
    rw [if_pos (.inr rfl), read_drop _ _ _ (by decide)]
    by_cases hin : o + 4 ≤ t.length
    rotate_left
    · rw [if_neg hin]
      left
      refine ⟨rfl, ?_⟩
      rintro ⟨d, w, n, a, h⟩
      cases h
      omega
    rw [if_pos hin]
    dsimp only
    rw [if_pos rfl, read_drop _ _ _ (by decide)]
    by_cases hin2 : o + 4 + 4 ≤ t.length
    rotate_left
    · rw [if_neg hin2]
      left
      refine ⟨rfl, ?_⟩
      rintro ⟨d, w, n, a, h⟩
      cases h
      omega
    rw [if_pos hin2]
    right
    refine ⟨_, _, _, _, rfl, ?_⟩
    intro d w n a
    have hlen : (slice t (o + 4) 4).length = 4 := by
      unfold slice
      rw [List.length_take, List.length_drop]
      omega
    simp only [Nat.shiftRight_eq_div_pow, and1, Nat.reducePow, slice_rd, rdI, hlen]
    constructor
    · intro h
      cases h with
      | @addend lib _ _ _ _ k1 k2 k3 k4 k5 k6 =>
        obtain ⟨rfl, rfl, rfl⟩ := (entry32 _ lib n w k2.1).1 k3
        exact ⟨((dylib32_iff _ _).2 k2).symm, rfl, rfl, ((signed4 _ (field_lt ..) a).2 ⟨k4, k5, k6⟩).symm⟩
    · rintro ⟨rfl, rfl, rfl, rfl⟩
      obtain ⟨k4, k5, k6⟩ := (signed4 (field en t (o + 4) 4) (field_lt ..) _).1 rfl
      exact .addend (by omega) ((dylib32_iff _ _).1 rfl) ((entry32 _ _ _ _ (Nat.mod_lt _ (by decide))).2 ⟨rfl, rfl, rfl⟩) k4 k5 k6
  rw [if_neg (by omega)]
  by_cases h3 : format = 3
  · subst h3
    rw [if_pos rfl, read_drop _ _ _ (by decide)]
    by_cases hin : o + 8 ≤ t.length
    rotate_left
    · rw [if_neg hin]
      left
      refine ⟨rfl, ?_⟩
      rintro ⟨d, w, n, a, h⟩
      cases h
      omega
    rw [if_pos hin]
    dsimp only
    rw [read_drop _ _ _ (by decide)]
    by_cases hin2 : o + 8 + 8 ≤ t.length
    rotate_left
    · rw [if_neg hin2]
      left
      refine ⟨rfl, ?_⟩
      rintro ⟨d, w, n, a, h⟩
      cases h
      omega
    rw [if_pos hin2]
    right
    refine ⟨_, _, _, _, rfl, ?_⟩
    intro d w n a
    have hlt : field en t o 8 / 4294967296 % 4294967296 = field en t o 8 / 4294967296 := by
      have : field en t o 8 < 256 ^ 8 := field_lt ..
      simp only [Nat.reducePow] at this
      omega
    simp only [Nat.shiftRight_eq_div_pow, and1, Nat.reducePow, slice_rd, hlt]
    constructor
    · intro h
      cases h with
      | @addend64 lib _ reserved _ _ _ k1 k2 k7 k3 k4 k5 k6 =>
        obtain ⟨rfl, rfl, rfl⟩ := (entry64 _ lib n w k2.1).1 ⟨reserved, k7, k3⟩
        exact ⟨((dylib64_iff _ _).2 k2).symm, rfl, rfl, ((signed8 _ (field_lt ..) a).2 ⟨k4, k5, k6⟩).symm⟩
    · rintro ⟨rfl, rfl, rfl, rfl⟩
      obtain ⟨k4, k5, k6⟩ := (signed8 (field en t (o + 8) 8) (field_lt ..) _).1 rfl
      obtain ⟨r, k7, k3⟩ := (entry64 (field en t o 8) _ _ _ (Nat.mod_lt _ (by decide))).2 ⟨rfl, rfl, rfl⟩
      exact .addend64 (by omega) ((dylib64_iff _ _).1 rfl) k7 k3 k4 k5 k6
  · rw [if_neg h3]
    left
    refine ⟨rfl, ?_⟩
    rintro ⟨d, w, n, a, h⟩
    cases h <;> contradiction

private theorem string_drop (d : List UInt8) (k n : Nat) (hk : k ≤ d.length) (s : List UInt8) :
    Bytes.readStringAt (d.drop k) n = .ok s ↔ CStrAt d (k + n) s := by
  rw [← Pe.readStringAt_iff]
  unfold Bytes.readStringAt Bytes.skip
  rw [List.length_drop, List.drop_drop]
  by_cases h : k + n ≤ d.length
  · rw [if_pos h, if_pos (by omega)]
  · rw [if_neg h, if_neg (by omega)]

private theorem import_next (en : Endianness) (f : Fixups) (hs : f.header.symbolsOffset ≤ f.data.length) (i n : Nat) :
    let it := fun i n => (⟨en, f.data.drop f.header.symbolsOffset, f.header.importsFormat,
      f.data.drop (f.header.importsOffset + i * entrySize f.header.importsFormat), n⟩ : ImportIt)
    ((¬ ∃ x, ImportAt en f i x) ∧ ∃ s', (it i (n + 1)).next = (.err, s') ∧ s'.count = 0) ∨
    ∃ x, (it i (n + 1)).next = (.ok (some x), it (i + 1) n) ∧ ∀ y, ImportAt en f i y ↔ y = x := by
  dsimp only
  unfold ImportIt.next Import.parse
  dsimp only
  rw [if_neg (by omega)]
  rcases entry_spec en f.header.importsFormat f.data (f.header.importsOffset + i * entrySize f.header.importsFormat) with ⟨h1, h2⟩ | ⟨d, w, k, a, h1, h2⟩
  · left
    constructor
    · rintro ⟨x, nameOff, h, -⟩
      exact h2 ⟨_, _, _, _, h⟩
    · cases he : entry en f.header.importsFormat (f.data.drop (f.header.importsOffset + i * entrySize f.header.importsFormat)) with
      | mk r tl =>
        rw [he] at h1
        dsimp only at h1
        subst h1
        exact ⟨_, rfl, rfl⟩
  · rw [h1]
    dsimp only
    cases hr : Bytes.readStringAt (f.data.drop f.header.symbolsOffset) k with
    | ok name =>
      right
      refine ⟨⟨d, w, a, name⟩, ?_, ?_⟩
      · simp only [Res.ok_bind, Nat.add_sub_cancel]
        rw [Nat.add_mul, Nat.one_mul, Nat.add_assoc]
      · intro y
        constructor
        · rintro ⟨nameOff, h3, h4⟩
          obtain ⟨e1, e2, e3, e4⟩ := (h2 _ _ _ _).1 h3
          subst e3
          rw [← string_drop _ _ _ hs, hr] at h4
          injection h4 with h4
          obtain ⟨y1, y2, y3, y4⟩ := y
          dsimp only at *
          subst e1 e2 e4 h4
          rfl
        · rintro rfl
          exact ⟨k, (h2 _ _ _ _).2 ⟨rfl, rfl, rfl, rfl⟩, (string_drop _ _ _ hs _).1 hr⟩
    | err =>
      left
      refine ⟨?_, _, rfl, rfl⟩
      rintro ⟨x, nameOff, h3, h4⟩
      obtain ⟨-, -, e3, -⟩ := (h2 _ _ _ _).1 h3
      subst e3
      rw [← string_drop _ _ _ hs, hr] at h4
      simp at h4
    | panic => exact absurd hr (Pe.readStringAt_no_panic _ _)

/-- **C81.** `imports()` succeeds exactly if the symbols are uncompressed and both tables start in the data; iterating then gives,
for every format and content of the table, the imports in order up to the first bad one, which is one error. -/
theorem C81_imports (en : Endianness) (f : Fixups) :
    f.imports en ≠ .panic ∧
    ((∃ it, f.imports en = .ok it) ↔
      f.header.symbolsFormat = 0 ∧ f.header.importsOffset ≤ f.data.length ∧ f.header.symbolsOffset ≤ f.data.length) ∧
    ∀ it, f.imports en = .ok it → (∃ xs, Spec.Fixup.Imports en f 0 xs) ∧ ∀ xs, Spec.Fixup.Imports en f 0 xs → Drains ImportIt.next it xs := by
  unfold Fixups.imports
  by_cases h1 : f.header.symbolsFormat = 0
  rotate_left
  · rw [if_pos h1]; exact ⟨by simp, by simp [h1], by simp⟩
  rw [if_neg (fun h => h h1)]
  by_cases h2 : f.header.importsOffset ≤ f.data.length
  rotate_left
  · rw [if_neg h2]; exact ⟨by simp, by simp [h2], by simp⟩
  rw [if_pos h2]
  by_cases h3 : f.header.symbolsOffset ≤ f.data.length
  rotate_left
  · rw [if_neg h3]; exact ⟨by simp, by simp [h3], by simp⟩
  rw [if_pos h3]
  refine ⟨by simp, by simp [h1, h2, h3], ?_⟩
  intro it hit
  injection hit with hit
  subst hit
  constructor
  · suffices h : ∀ n i, i + n = f.header.importsCount → ∃ xs, Spec.Fixup.Imports en f i xs from h _ 0 (Nat.zero_add _)
    intro n
    induction n with
    | zero => intro i hi; rw [Nat.add_zero] at hi; subst hi; exact ⟨_, .done⟩
    | succ n ih =>
      intro i hi
      by_cases hx : ∃ x, ImportAt en f i x
      · obtain ⟨x, hx⟩ := hx
        obtain ⟨xs, h⟩ := ih (i + 1) (by omega)
        exact ⟨_, .item (by omega) hx h⟩
      · exact ⟨_, .bad (by omega) hx⟩
  · intro xs hxs
    suffices h : ∀ i n, i + n = f.header.importsCount → Spec.Fixup.Imports en f i xs →
        Drains ImportIt.next ⟨en, f.data.drop f.header.symbolsOffset, f.header.importsFormat,
          f.data.drop (f.header.importsOffset + i * entrySize f.header.importsFormat), n⟩ xs by
      have := h 0 f.header.importsCount (Nat.zero_add _) hxs
      rwa [Nat.zero_mul, Nat.add_zero] at this
    intro i n hi h
    clear hxs
    induction h generalizing n with
    | done =>
      have : n = 0 := by omega
      subst this
      exact .done rfl
    | @item i x xs hlt hx _ ih =>
      obtain ⟨n, rfl⟩ : ∃ m, n = m + 1 := ⟨n - 1, by omega⟩
      rcases import_next en f h3 i n with ⟨hn, -⟩ | ⟨y, h5, h6⟩
      · exact absurd ⟨x, hx⟩ hn
      · obtain rfl := (h6 x).1 hx
        exact .item h5 (ih n (by omega))
    | @bad i hlt hx =>
      obtain ⟨n, rfl⟩ : ∃ m, n = m + 1 := ⟨n - 1, by omega⟩
      rcases import_next en f h3 i n with ⟨-, s', h5, h6⟩ | ⟨y, -, h6⟩
      · refine .err h5 (.done (s' := s') ?_)
        unfold ImportIt.next
        rw [if_pos h6]
      · exact absurd ⟨y, (h6 y).2 rfl⟩ hx

/-! ## Segments -/

private theorem readSlice_drop (d : List UInt8) (o w n : Nat) (hw : n * w < U64) :
    (Bytes.readSlice (d.drop o) w n).1 = if n = 0 ∨ w = 0 ∨ o + w * n ≤ d.length then
      .ok ((List.range n).map fun i => slice d (o + w * i) w) else .err := by
  have hch : Bytes.chunks w n (d.drop o) = (List.range n).map fun i => slice d (o + w * i) w := by
    apply List.ext_getElem?
    intro i
    rcases Nat.lt_or_ge i n with hi | hi
    · rw [Coff.chunks_get _ _ _ _ hi, List.getElem?_map, List.getElem?_range hi]
      simp [slice, List.drop_drop]
    · rw [Coff.chunks_none _ _ _ _ hi, List.getElem?_eq_none (by simpa using hi)]
  unfold Bytes.readSlice
  rw [List.length_drop, hch]
  have hc : w * n = n * w := Nat.mul_comm ..
  rw [hc]
  by_cases h0 : n * w = 0
  · have h1 : n = 0 ∨ w = 0 := by
      rcases Nat.eq_zero_or_pos n with h | h
      · exact .inl h
      · exact .inr ((Nat.mul_eq_zero.1 h0).resolve_left (by omega))
    rw [if_pos ⟨hw, by omega⟩, if_pos (by rcases h1 with h | h; exact .inl h; exact .inr (.inl h))]
  · have hn : n ≠ 0 := by rintro rfl; simp at h0
    have hw0 : w ≠ 0 := by rintro rfl; simp at h0
    by_cases h : o + n * w ≤ d.length
    · rw [if_pos ⟨hw, by omega⟩, if_pos (.inr (.inr h))]
    · rw [if_neg (by omega), if_neg (by omega)]

private theorem segAt_spec (en : Endianness) (data : List UInt8) (base i x : Nat) (hb : base ≤ data.length) :
    segAt en (data.drop base) i x ≠ .panic ∧
    ∀ s, segAt en (data.drop base) i x = .ok s ↔ SegIn en data (base + x) s ∧ s.index = i := by
  unfold segAt Bytes.skip
  rw [List.length_drop]
  by_cases h1 : x ≤ data.length - base
  rotate_left
  · rw [if_neg h1]
    refine ⟨by simp, fun s => ?_⟩
    simp only [reduceCtorEq, false_iff]
    rintro ⟨h, -⟩
    have := h.inside
    omega
  rw [if_pos h1]
  dsimp only
  rw [List.drop_drop, read_drop _ _ _ (by decide)]
  by_cases h2 : base + x + 22 ≤ data.length
  rotate_left
  · rw [if_neg h2]
    refine ⟨by simp, fun s => ?_⟩
    simp only [reduceCtorEq, false_iff]
    rintro ⟨h, -⟩
    have := h.inside
    omega
  rw [if_pos h2]
  dsimp only
  have hd : SegHeader.decode en (slice data (base + x) 22) = ⟨field en data (base + x) 4, field en data (base + x + 4) 2,
      field en data (base + x + 6) 2, field en data (base + x + 8) 8, field en data (base + x + 16) 4, field en data (base + x + 20) 2⟩ := by
    unfold SegHeader.decode
    rw [fieldSlice _ _ _ _ _ _ (by decide), fieldSlice _ _ _ _ _ _ (by decide), fieldSlice _ _ _ _ _ _ (by decide),
      fieldSlice _ _ _ _ _ _ (by decide), fieldSlice _ _ _ _ _ _ (by decide), fieldSlice _ _ _ _ _ _ (by decide)]
    rfl
  rw [hd]
  dsimp only
  have hsz : field en data (base + x) 4 < 256 ^ 4 := field_lt ..
  simp only [Nat.reducePow] at hsz
  by_cases h3 : 22 ≤ field en data (base + x) 4
  rotate_left
  · rw [if_neg h3]
    refine ⟨by simp, fun s => ?_⟩
    simp only [reduceCtorEq, false_iff]
    rintro ⟨h, -⟩
    have h4 := h.size
    rw [h.header] at h4
    exact h3 h4
  rw [if_pos h3]
  have hr := readSlice_drop data (base + x + 22) 2 ((field en data (base + x) 4 - 22) / 2) (by omega)
  cases hc : Bytes.readSlice (data.drop (base + x + 22)) 2 ((field en data (base + x) 4 - 22) / 2) with
  | mk r tl =>
  rw [hc] at hr
  dsimp only at hr
  subst hr
  by_cases h4 : base + x + 22 + 2 * ((field en data (base + x) 4 - 22) / 2) ≤ data.length
  · rw [if_pos (.inr (.inr h4))]
    refine ⟨by simp, fun s => ?_⟩
    dsimp only
    rw [List.map_map]
    constructor
    · intro e
      injection e with e
      subst e
      exact ⟨⟨h2, rfl, h3, h4, rfl⟩, rfl⟩
    · rintro ⟨h, hi⟩
      obtain ⟨s1, s2, s3⟩ := s
      obtain ⟨-, k2, -, -, k5⟩ := h
      dsimp only at *
      subst hi k2 k5
      rfl
  · rw [if_neg (by omega)]
    refine ⟨by simp, fun s => ?_⟩
    simp only [reduceCtorEq, false_iff]
    rintro ⟨h, -⟩
    have h5 := h.startsInside
    rw [h.header] at h5
    exact h4 h5

/-- **C81.** `segments()` never panics and succeeds exactly if the table of offsets is inside; iterating then gives, in order, for each
offset that is not 0 the chain starts there, or an error for that segment only. -/
theorem C81_segments (en : Endianness) (f : Fixups) :
    f.segments en ≠ .panic ∧
    ((∃ it, f.segments en = .ok it) ↔ f.header.startsOffset + 4 ≤ f.data.length ∧
      f.header.startsOffset + 4 + 4 * field en f.data f.header.startsOffset 4 ≤ f.data.length) ∧
    ∀ it, f.segments en = .ok it → ∃ outs : List (Option (Res Seg)), outs.length = field en f.data f.header.startsOffset 4 ∧
      (∀ i r, outs[i]? = some r →
        SegOut en f.data f.header.startsOffset i (field en f.data (f.header.startsOffset + 4 + 4 * i) 4) r) ∧
      Drains SegIt.next it (outs.filterMap id) := by
  unfold Fixups.segments Bytes.skip
  by_cases h1 : f.header.startsOffset ≤ f.data.length
  rotate_left
  · rw [if_neg h1]
    exact ⟨by simp, by simp; omega, by simp⟩
  rw [if_pos h1]
  dsimp only
  rw [read_drop _ _ _ (by decide)]
  by_cases h2 : f.header.startsOffset + 4 ≤ f.data.length
  rotate_left
  · rw [if_neg h2]
    exact ⟨by simp, by simp; omega, by simp⟩
  rw [if_pos h2]
  dsimp only
  rw [slice_rd]
  generalize hcount : field en f.data f.header.startsOffset 4 = cnt
  have hlt : cnt < 2 ^ 32 := by rw [← hcount]; exact field_lt ..
  have hr := readSlice_drop f.data (f.header.startsOffset + 4) 4 cnt (by omega)
  cases hc : Bytes.readSlice (f.data.drop (f.header.startsOffset + 4)) 4 cnt with
  | mk r tl =>
  rw [hc] at hr
  dsimp only at hr
  subst hr
  by_cases h4 : f.header.startsOffset + 4 + 4 * cnt ≤ f.data.length
  rotate_left
  · rw [if_neg (by omega)]
    exact ⟨by simp, by simp; omega, by simp⟩
  rw [if_pos (.inr (.inr h4))]
  refine ⟨by simp, by simp [h2, h4], ?_⟩
  intro it hit
  dsimp only at hit
  injection hit with hit
  subst hit
  rw [List.map_map]
  generalize hoffs : (List.range cnt).map (rd en ∘ fun i => slice f.data (f.header.startsOffset + 4 + 4 * i) 4) = offs
  have hol : offs.length = cnt := by rw [← hoffs]; simp
  have hoi : ∀ i x, offs[i]? = some x → x = field en f.data (f.header.startsOffset + 4 + 4 * i) 4 := by
    intro i x hx
    rw [← hoffs, List.getElem?_map] at hx
    have hi : i < cnt := by
      rcases Nat.lt_or_ge i cnt with h | h
      · exact h
      · rw [List.getElem?_eq_none (by simpa using h)] at hx; simp at hx
    rw [List.getElem?_range hi] at hx
    simp only [Option.map_some, Option.some.injEq, Function.comp] at hx
    exact hx.symm
  suffices h : ∀ n i, i + n = cnt → ∃ outs : List (Option (Res Seg)), outs.length = n ∧
      (∀ j r, outs[j]? = some r → SegOut en f.data f.header.startsOffset (i + j) (field en f.data (f.header.startsOffset + 4 + 4 * (i + j)) 4) r) ∧
      Drains SegIt.next ⟨en, f.data.drop f.header.startsOffset, offs, i⟩ (outs.filterMap id) by
    obtain ⟨outs, k1, k2, k3⟩ := h cnt 0 (Nat.zero_add _)
    refine ⟨outs, k1, ?_, k3⟩
    intro i r h
    have := k2 i r h
    rwa [Nat.zero_add] at this
  intro n
  induction n with
  | zero =>
    intro i hi
    refine ⟨[], rfl, by simp, .done (s' := ⟨en, f.data.drop f.header.startsOffset, offs, i⟩) ?_⟩
    unfold SegIt.next
    dsimp only
    have e : offs.drop i = [] := List.drop_of_length_le (by omega)
    rw [e]
    rfl
  | succ n ih =>
    intro i hi
    obtain ⟨outs, k1, k2, k3⟩ := ih (i + 1) (by omega)
    have hx : offs[i]? = some offs[i] := List.getElem?_eq_getElem (by omega)
    have hd : offs.drop i = offs[i] :: offs.drop (i + 1) := List.drop_eq_getElem_cons (by omega)
    generalize offs[i] = x at hx hd
    have hxv := hoi i x hx
    have hnext : SegIt.next ⟨en, f.data.drop f.header.startsOffset, offs, i⟩ =
        if x = 0 then SegIt.next ⟨en, f.data.drop f.header.startsOffset, offs, i + 1⟩
        else ((segAt en (f.data.drop f.header.startsOffset) i x).bind fun s => .ok (some s),
          ⟨en, f.data.drop f.header.startsOffset, offs, i + 1⟩) := by
      unfold SegIt.next
      dsimp only
      rw [hd, segLoop]
      by_cases h0 : x = 0
      · rw [if_pos h0, if_pos h0]
      · rw [if_neg h0, if_neg h0]
    have hrest : ∀ r0 : Option (Res Seg), SegOut en f.data f.header.startsOffset i x r0 → ∀ j r, (r0 :: outs)[j]? = some r →
        SegOut en f.data f.header.startsOffset (i + j) (field en f.data (f.header.startsOffset + 4 + 4 * (i + j)) 4) r := by
      intro r0 h0 j r hj
      cases j with
      | zero =>
        simp at hj; subst hj
        rw [Nat.add_zero, ← hxv]; exact h0
      | succ j =>
        simp only [List.getElem?_cons_succ] at hj
        have := k2 j r hj
        have e : i + 1 + j = i + (j + 1) := by omega
        rwa [e] at this
    obtain ⟨p1, p2⟩ := segAt_spec en f.data f.header.startsOffset i x h1
    by_cases h0 : x = 0
    · refine ⟨none :: outs, by simp [k1], hrest _ (by rw [h0]; exact .none), ?_⟩
      rw [if_pos h0] at hnext
      exact Drains.congr hnext k3
    · rw [if_neg h0] at hnext
      cases hsg : segAt en (f.data.drop f.header.startsOffset) i x with
      | ok s =>
        rw [hsg] at hnext
        have hin := (p2 s).1 hsg
        refine ⟨some (.ok s) :: outs, by simp [k1], hrest _ (.item h0 hin.1 hin.2), ?_⟩
        exact .item hnext k3
      | err =>
        rw [hsg] at hnext
        refine ⟨some .err :: outs, by simp [k1], hrest _ (.bad h0 ?_), ?_⟩
        · rintro ⟨s, hs⟩
          have : SegIn en f.data (f.header.startsOffset + x) { s with index := i } :=
            ⟨hs.inside, hs.header, hs.size, hs.startsInside, hs.starts⟩
          have := (p2 _).2 ⟨this, rfl⟩
          rw [hsg] at this
          simp at this
        · exact .err hnext k3
      | panic => exact absurd hsg p1

/-! ## Non-trivial cases -/

/-- A segment with two pages of `DYLD_CHAINED_PTR_64_OFFSET`: a chain of a rebase and a bind on the first, none on the second. -/
private def sampleSeg : Seg := ⟨1, ⟨26, 16, 6, 0x4000, 0, 2⟩, [8, 0xffff]⟩

private def sampleTable : List UInt8 := encode .little [(4, 26), (2, 16), (2, 6), (8, 0x4000), (4, 0), (2, 2), (2, 8), (2, 0xffff)]

private theorem sampleSeg_in : SegIn .little sampleTable 0 sampleSeg :=
  ⟨by decide, by decide, by decide, by decide, by decide⟩

private def sampleData : List UInt8 :=
  encode .little [(8, 0), (8, 0x1234 + 0xab * 2 ^ 36 + 3 * 2 ^ 51), (4, 0), (8, 5 + 7 * 2 ^ 24 + 2 ^ 63)]

example : Pages (sampleSeg.ctx .little 0 sampleData) 0
    ([(8, .rebase (withTop 0x1234 0 0xab) none), (20, .bnd 5 7 none)] ++ ([] ++ [])) true := by
  refine .page (by decide) (.single (x := 8) rfl (by decide) ?_) (.page (by decide) (.none rfl) (.done (by decide)))
  refine .step (next := 3 * 4) ⟨by decide, ?_⟩ (by decide) (.last (f := .bnd 5 7 none) ⟨by decide, ?_⟩)
  · have h := @Ptr64.rebase 0 0x1234 0xab 0 3 (by decide) (by decide) (by decide) (by decide)
    exact .ptr64Offset (n := 3) h
  · have h := @Ptr64.bnd 0 5 7 0 0 (by decide) (by decide) (by decide) (by decide)
    exact .ptr64Offset (n := 0) h

example : withTop 0x1234 0 0xab = 0xab00000000001234 := by decide

/-- The whole run on it. -/
example : Drains (sampleSeg.ctx .little 0 sampleData).next St.init
    [.ok (8, .rebase 0xab00000000001234 none), .ok (20, .bnd 5 7 none)] := by
  refine .item (s' := ⟨.page, 1, 0, 0, 20⟩) ?_ (.item (s' := ⟨.start, 1, 0, 0, 20⟩) ?_ (.done (s' := ⟨.start, 2, 0, 16, 20⟩) ?_))
  all_goals decide +kernel

/-- Chains with several starts per page, and a broken one. -/
example : Drains (Ctx.next ⟨.little, 0, encode .little [(4, 0x123), (4, 0x80500007)], 4, 8, 1, [0x8001, 0, 0x8008]⟩) St.init
    [.ok (0, .rebase 0x123 none), .err] := by
  refine .item (s' := ⟨.chain, 1, 2, 0, 0⟩) ?_ (.err (s' := ⟨.start, 1, 3, 0, 8⟩) ?_ (.done (s' := ⟨.start, 1, 3, 0, 8⟩) ?_))
  all_goals decide +kernel

/-- A header with one import by each table. -/
private def sampleFixups : List UInt8 :=
  encode .little [(4, 0), (4, 28), (4, 36), (4, 44), (4, 1), (4, 2), (4, 0), (4, 1), (4, 0), (4, 0xfe + 2 ^ 8 + 1 * 2 ^ 9), (4, 2 ^ 32 - 3), (1, 0), (1, 0x66), (1, 0)]

example : ∃ f it, Fixups.parse .little sampleFixups = .ok f ∧ f.imports .little = .ok it ∧
    Drains ImportIt.next it [.ok ⟨-2, true, -3, [0x66]⟩] := by
  refine ⟨_, _, rfl, rfl, .item rfl (.done rfl)⟩

example : ∃ f it, Fixups.parse .little sampleFixups = .ok f ∧ f.segments .little = .ok it ∧ Drains SegIt.next it [] := by
  refine ⟨_, _, rfl, rfl, .done rfl⟩

end Obj.Props
