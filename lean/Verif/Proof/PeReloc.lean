import Verif.Model.PeReloc
import Verif.Proof.Iter
import Verif.Proof.Endian

namespace Obj.Pe

theorem and3 (n : Nat) : n &&& 3 = n % 4 := Nat.and_two_pow_sub_one_eq_mod n 2
theorem and1 (n : Nat) : n &&& 1 = n % 2 := Nat.and_two_pow_sub_one_eq_mod n 1
theorem andfff (n : Nat) : n &&& 0xfff = n % 4096 := Nat.and_two_pow_sub_one_eq_mod n 12
theorem shr12 (n : Nat) : n >>> 12 = n / 4096 := by rw [Nat.shiftRight_eq_div_pow]

theorem pageMask (n : Nat) (h : n < U32) : n &&& (U32 - 1 - 0xfff) = n / 4096 * 4096 := by
  have := and_mask_eq (x := n) (k := 12) (n := 32) (by omega) (by simpa using h)
  simpa using this

/-- The image of a block with address `va` and entries `es`. -/
def encBlock (va : Nat) (es : List Nat) : List UInt8 :=
  encode .little [(4, va), (4, 8 + es.length * 2)] ++ es.flatMap (wr .little 2)

theorem length_flatMap_wr (es : List Nat) : (es.flatMap (wr .little 2)).length = es.length * 2 := by
  induction es with
  | nil => rfl
  | cons x es ih => simp [List.flatMap_cons, ih]; omega

theorem length_encBlock (va : Nat) (es : List Nat) : (encBlock va es).length = 8 + es.length * 2 := by
  unfold encBlock
  rw [List.length_append, length_flatMap_wr, length_encode]
  simp

theorem chunks_flatMap (es : List Nat) (tl : List UInt8) :
    Bytes.chunks 2 es.length (es.flatMap (wr .little 2) ++ tl) = es.map (wr .little 2) := by
  induction es with
  | nil => rfl
  | cons x es ih =>
    have h1 : (wr .little 2 x ++ (es.flatMap (wr .little 2) ++ tl)).take 2 = wr .little 2 x := by
      rw [List.take_append_of_le_length (by simp), List.take_of_length_le (by simp)]
    have h2 : (wr .little 2 x ++ (es.flatMap (wr .little 2) ++ tl)).drop 2 = es.flatMap (wr .little 2) ++ tl := by
      rw [List.drop_append, List.drop_of_length_le (by simp), length_wr]; simp
    simp only [List.length_cons, Bytes.chunks, List.flatMap_cons, List.append_assoc, h1, h2, ih, List.map_cons]

theorem map_rd_wr (es : List Nat) (h : ∀ x ∈ es, x < U16) : (es.map (wr .little 2)).map (rd .little) = es := by
  rw [List.map_map]
  conv => rhs; rw [← List.map_id es]
  apply List.map_congr_left
  intro x hx
  simp only [Function.comp, id]
  exact rd_wr .little 2 x (by have := h x hx; omega)

theorem parseBlock_enc (va : Nat) (es : List Nat) (tl : List UInt8) (hva : va < U32)
    (hes : ∀ x ∈ es, x < U16) (hpos : 0 < es.length) (heven : es.length % 2 = 0) (hl : 8 + es.length * 2 < U32) :
    parseBlock (encBlock va es ++ tl) = (.ok ⟨va, 8 + es.length * 2, es⟩, tl) := by
  have hr : Bytes.read (encBlock va es ++ tl) 8 =
      (.ok (encode .little [(4, va), (4, 8 + es.length * 2)]), es.flatMap (wr .little 2) ++ tl) := by
    have h8 : (encode .little [(4, va), (4, 8 + es.length * 2)]).length = 8 := by simp
    have := readBytes_append (encode .little [(4, va), (4, 8 + es.length * 2)]) (es.flatMap (wr .little 2) ++ tl)
    rw [h8] at this
    simpa [Bytes.read, encBlock] using this
  have hf0 : field .little (encode .little [(4, va), (4, 8 + es.length * 2)]) 0 4 = va := by
    have := field_encode_zero .little 4 va [(4, 8 + es.length * 2)] [] (by omega)
    simpa using this
  have hf4 : field .little (encode .little [(4, va), (4, 8 + es.length * 2)]) 4 4 = 8 + es.length * 2 := by
    have := field_encode_succ .little 4 va [(4, 8 + es.length * 2)] [] 4 4 (by omega)
    rw [field_encode_zero .little 4 _ [] [] (by omega)] at this
    simpa using this
  have hc : (8 + es.length * 2 - 8) / 2 = es.length := by omega
  have hs : Bytes.readSlice (es.flatMap (wr .little 2) ++ tl) 2 es.length = (.ok (es.map (wr .little 2)), tl) := by
    unfold Bytes.readSlice
    rw [if_pos ⟨by omega, by simp only [List.length_append, length_flatMap_wr]; omega⟩, chunks_flatMap]
    congr 1
    rw [List.drop_append, List.drop_of_length_le (by rw [length_flatMap_wr]; exact Nat.le_refl _), length_flatMap_wr]; simp
  unfold parseBlock
  simp only [hr, hf0, hf4, and3]
  rw [if_neg (by omega)]
  simp only [hc, hs, map_rd_wr es hes]

/-- `parseBlock` succeeds only on a block image. -/
theorem parseBlock_ok {data d : List UInt8} {b : RelocBlockData} (h : parseBlock data = (.ok b, d)) :
    data = encBlock b.virtualAddress b.relocs ++ d ∧ b.virtualAddress < U32 ∧ (∀ x ∈ b.relocs, x < U16) ∧
    0 < b.relocs.length ∧ b.relocs.length % 2 = 0 ∧ b.size = 8 + b.relocs.length * 2 ∧ b.size < U32 := by
  unfold parseBlock at h
  have hread : Bytes.read data 8 = if 8 ≤ data.length then (.ok (data.take 8), data.drop 8) else (.err, []) := rfl
  by_cases h8 : ¬ 8 ≤ data.length
  · rw [hread, if_neg h8] at h; simp at h
  replace h8 : 8 ≤ data.length := by omega
  rw [hread, if_pos h8] at h
  simp only [and3] at h
  have hsz := field_lt .little (data.take 8) 4 4
  have hva := field_lt .little (data.take 8) 0 4
  generalize hsz' : field .little (data.take 8) 4 4 = size at h hsz
  generalize hva' : field .little (data.take 8) 0 4 = va at h hva
  by_cases hbad : size ≤ 8 ∨ size % 4 ≠ 0
  · rw [if_pos hbad] at h; simp at h
  rw [if_neg hbad] at h
  unfold Bytes.readSlice at h
  by_cases hfit : ¬ ((size - 8) / 2 * 2 < U64 ∧ (size - 8) / 2 * 2 ≤ (data.drop 8).length)
  · rw [if_neg hfit] at h; simp at h
  replace hfit := Classical.not_not.1 hfit
  rw [if_pos hfit] at h
  simp only [Prod.mk.injEq, Res.ok.injEq] at h
  obtain ⟨rfl, rfl⟩ := h
  obtain ⟨c1, c2, c3⟩ := flatten_chunks 2 ((size - 8) / 2) (data.drop 8) hfit.2
  have hlen : ((Bytes.chunks 2 ((size - 8) / 2) (data.drop 8)).map (rd .little)).length = (size - 8) / 2 := by
    simp [c3]
  refine ⟨?_, by omega, ?_, by rw [hlen]; omega, by rw [hlen]; omega, by rw [hlen]; dsimp only; omega, by dsimp only; omega⟩
  · dsimp only
    have e1 : encode .little [(4, va), (4, 8 + ((size - 8) / 2) * 2)] = data.take 8 := by
      have hs : 8 + ((size - 8) / 2) * 2 = size := by omega
      rw [hs, ← hva', ← hsz']
      simp only [encode, field, List.append_nil]
      have l1 : (List.take 4 (List.drop 0 (data.take 8))).length = 4 := by simp; omega
      have l2 : (List.take 4 (List.drop 4 (data.take 8))).length = 4 := by simp; omega
      have w1 := wr_rd .little (List.take 4 (List.drop 0 (data.take 8)))
      have w2 := wr_rd .little (List.take 4 (List.drop 4 (data.take 8)))
      rw [l1] at w1
      rw [l2] at w2
      rw [w1, w2, List.drop_zero]
      have : List.take 4 (List.drop 4 (data.take 8)) = List.drop 4 (data.take 8) := by
        apply List.take_of_length_le; simp; omega
      rw [this, List.take_append_drop]
    have e2 : ((Bytes.chunks 2 ((size - 8) / 2) (data.drop 8)).map (rd .little)).flatMap (wr .little 2) =
        (data.drop 8).take ((size - 8) / 2 * 2) := by
      rw [← c1, List.flatMap_map, List.flatMap_def]
      congr 1
      conv => rhs; rw [← List.map_id (Bytes.chunks 2 ((size - 8) / 2) (data.drop 8))]
      apply List.map_congr_left
      intro c hc
      have := wr_rd .little c
      rw [c2 c hc] at this
      simpa using this
    unfold encBlock
    rw [hlen, e1, e2, List.append_assoc, List.take_append_drop, List.take_append_drop]
  · intro x hx
    simp only [List.mem_map] at hx
    obtain ⟨c, hc, rfl⟩ := hx
    have := rd_lt .little c
    rw [c2 c hc] at this
    omega

theorem parseBlock_no_panic (data : List UInt8) : (parseBlock data).1 ≠ .panic := by
  unfold parseBlock
  have hread : Bytes.read data 8 = if 8 ≤ data.length then (.ok (data.take 8), data.drop 8) else (.err, []) := rfl
  rw [hread]
  by_cases h8 : 8 ≤ data.length
  · rw [if_pos h8]
    dsimp only
    split
    · simp
    · unfold Bytes.readSlice
      split
      · rename_i heq; split at heq <;> simp at heq ⊢
      · simp
      · rename_i heq; split at heq <;> simp at heq
  · rw [if_neg h8]; simp

theorem parseBlock_consumes {data d : List UInt8} {b : RelocBlockData} (h : parseBlock data = (.ok b, d)) :
    d.length < data.length := by
  have := (parseBlock_ok h).1
  rw [this]; simp [length_encBlock]; omega

/-! ## The relocations of one block -/

/-- The relocations described by a block's entries: zero entries are padding. -/
def blockRelocs (va : Nat) (es : List Nat) : List Reloc :=
  (es.filter (· ≠ 0)).map fun r => ⟨(va + r % 4096) % U32, r / 4096⟩

theorem relocLoop_runs (va size : Nat) (es : List Nat) :
    Runs RelocBlockData.next ⟨va, size, es⟩ (blockRelocs va es) .done := by
  generalize hn : es.length = n
  induction n using Nat.strongRecOn generalizing es with
  | _ n ih =>
  subst hn
  have key : ∀ es : List Nat, (blockRelocs va es = [] ∧ relocLoop va es = (none, [])) ∨
      ∃ r tl, relocLoop va es = (some r, tl) ∧ blockRelocs va es = r :: blockRelocs va tl ∧ tl.length < es.length := by
    intro es
    induction es with
    | nil => left; simp [blockRelocs, relocLoop]
    | cons x es ihe =>
      by_cases hx : x = 0
      · subst hx
        rcases ihe with ⟨h1, h2⟩ | ⟨r, tl, h1, h2, h3⟩
        · left; exact ⟨by simpa [blockRelocs] using h1, by simpa [relocLoop] using h2⟩
        · right
          refine ⟨r, tl, by simpa [relocLoop] using h1, by simpa [blockRelocs] using h2, by simp; omega⟩
      · right
        refine ⟨⟨(va + (x &&& 0xfff)) % U32, x >>> 12⟩, es, by simp only [relocLoop, if_pos hx, ne_eq, hx, not_false_eq_true, if_true], ?_, by simp⟩
        simp [blockRelocs, hx, andfff, shr12]
  rcases key es with ⟨h1, h2⟩ | ⟨r, tl, h1, h2, h3⟩
  · rw [h1]
    exact .done (s' := ⟨va, size, []⟩) (by simp [RelocBlockData.next, h2])
  · rw [h2]
    exact .item (s' := ⟨va, size, tl⟩) (by simp [RelocBlockData.next, h1]) (ih tl.length h3 tl rfl)

/-! ## The writer -/

/-- A ghost view of the writer: blocks (newest first) with their entries. -/
abbrev Groups := List (Nat × List Nat)

def Groups.bytes (gs : Groups) : List UInt8 := gs.reverse.flatMap fun g => encBlock g.1 g.2
def Groups.relocs (gs : Groups) : List Reloc := gs.reverse.flatMap fun g => blockRelocs g.1 g.2

structure WInv (w : RelocWriter) (gs : Groups) : Prop where
  blocks : w.blocks = gs.map fun g => ⟨g.1, g.2.length⟩
  relocs : w.relocs = gs.reverse.flatMap (·.2)
  va : ∀ g ∈ gs, g.1 < U32 ∧ g.1 % 4096 = 0
  nonempty : ∀ g ∈ gs, 0 < g.2.length
  small : ∀ g ∈ gs, ∀ x ∈ g.2, x < U16

theorem flatMap_reverse_cons {α β : Type} (f : α → List β) (a : α) (l : List α) :
    (a :: l).reverse.flatMap f = l.reverse.flatMap f ++ f a := by
  simp [List.flatMap_append]

theorem padBlock_eq (g : Nat × List Nat) (relocs : List Nat) (h : g.2.length + 1 < U32) :
    padBlock ⟨g.1, g.2.length⟩ relocs =
      .ok (⟨g.1, (g.2 ++ List.replicate (g.2.length % 2) 0).length⟩, relocs ++ List.replicate (g.2.length % 2) 0) := by
  unfold padBlock
  rw [and1]
  by_cases hp : g.2.length % 2 ≠ 0
  · have h1 : g.2.length % 2 = 1 := by omega
    rw [if_pos hp, h1]
    simp only [WBlock.inc, if_neg (show ¬ U32 ≤ g.2.length + 1 by omega)]
    simp
  · have h1 : g.2.length % 2 = 0 := by omega
    rw [if_neg hp, h1]; simp

theorem blockRelocs_append (va : Nat) (a b : List Nat) : blockRelocs va (a ++ b) = blockRelocs va a ++ blockRelocs va b := by
  simp [blockRelocs]

theorem blockRelocs_pad (va k : Nat) (es : List Nat) : blockRelocs va (es ++ List.replicate k 0) = blockRelocs va es := by
  rw [blockRelocs_append]
  have : blockRelocs va (List.replicate k 0) = [] := by
    simp only [blockRelocs, List.map_eq_nil_iff, List.filter_eq_nil_iff]
    intro a ha; rw [List.eq_of_mem_replicate ha]; simp
  rw [this, List.append_nil]

/-- The entry stored for a relocation. -/
def entry (va typ : Nat) : Nat := typ * 4096 + va % 4096

theorem entry_eq (va typ : Nat) (ht : typ < 16) :
    ((typ <<< 12) % U16) ||| ((va &&& 0xfff) % U16) = entry va typ := by
  rw [andfff, Nat.shiftLeft_eq]
  have h1 : typ * 2 ^ 12 % U16 = 2 ^ 12 * typ := by
    rw [Nat.mul_comm]; exact Nat.mod_eq_of_lt (by omega)
  have h2 : va % 4096 % U16 = va % 4096 := by omega
  rw [h1, h2, ← Nat.two_pow_add_eq_or_of_lt (show va % 4096 < 2 ^ 12 by omega)]
  unfold entry; omega

theorem add_spec {w : RelocWriter} {gs : Groups} (hi : WInv w gs) (r : Reloc)
    (hva : r.virtualAddress < U32) (ht : r.typ < 16) (hnz : entry r.virtualAddress r.typ ≠ 0)
    (hord : ∀ g ∈ gs, g.1 ≤ r.virtualAddress)
    (heven : ∀ g ∈ gs.tail, g.2.length % 2 = 0)
    (hcnt : ∀ g ∈ gs, g.2.length + 1 < U32) :
    ∃ w' gs', w.add r.virtualAddress r.typ = .ok w' ∧ WInv w' gs' ∧
      gs'.relocs = gs.relocs ++ [r] ∧ (∀ g ∈ gs'.tail, g.2.length % 2 = 0) ∧
      (∀ g ∈ gs', g.1 ≤ r.virtualAddress) ∧
      (w'.relocs.length + 4 * gs'.length ≤ w.relocs.length + 4 * gs.length + 6) := by
  have hent : blockRelocs (r.virtualAddress / 4096 * 4096) [entry r.virtualAddress r.typ] = [r] := by
    simp only [blockRelocs, List.filter_cons, List.filter_nil]
    simp only [hnz, ne_eq, not_false_eq_true, decide_true, if_true, List.map_cons, List.map_nil]
    congr 1
    unfold entry
    have e1 : (r.typ * 4096 + r.virtualAddress % 4096) % 4096 = r.virtualAddress % 4096 := by omega
    have e2 : (r.typ * 4096 + r.virtualAddress % 4096) / 4096 = r.typ := by omega
    rw [e1, e2]
    have e3 : (r.virtualAddress / 4096 * 4096 + r.virtualAddress % 4096) % U32 = r.virtualAddress := by
      rw [Nat.mul_comm, Nat.div_add_mod]; exact Nat.mod_eq_of_lt hva
    rw [e3]
  have hes : entry r.virtualAddress r.typ < U16 := by unfold entry; omega
  unfold RelocWriter.add
  rw [entry_eq _ _ ht, pageMask _ hva]
  match gs, hi with
  | [], hi =>
    have hb := hi.blocks
    simp only [List.map_nil] at hb
    rw [hb]
    refine ⟨_, [(r.virtualAddress / 4096 * 4096, [entry r.virtualAddress r.typ])], rfl, ⟨rfl, ?_, ?_, ?_, ?_⟩, ?_, ?_, ?_, ?_⟩
    · have := hi.relocs; simp at this; simp [this]
    · simp only [List.mem_singleton]; rintro g rfl; dsimp only; omega
    · simp
    · simp [hes]
    · simp only [Groups.relocs, flatMap_reverse_cons, hent]
    · simp
    · simp only [List.mem_singleton]; rintro g rfl; dsimp only; omega
    · simp
  | g :: gs, hi =>
    have hb := hi.blocks
    simp only [List.map_cons] at hb
    rw [hb]
    dsimp only
    have hr := hi.relocs
    rw [flatMap_reverse_cons] at hr
    have hg := hi.va g (by simp)
    by_cases hsame : g.1 = r.virtualAddress / 4096 * 4096
    · rw [if_pos hsame]
      simp only [WBlock.inc, Res.bind_eq]
      rw [if_neg (by have := hcnt g (by simp); omega)]
      refine ⟨_, (g.1, g.2 ++ [entry r.virtualAddress r.typ]) :: gs, rfl, ⟨by simp, ?_, ?_, ?_, ?_⟩, ?_, ?_, ?_, ?_⟩
      · rw [flatMap_reverse_cons, hr]; simp
      · intro x hx
        rcases List.mem_cons.1 hx with rfl | hx
        · exact hg
        · exact hi.va x (by simp [hx])
      · intro x hx
        rcases List.mem_cons.1 hx with rfl | hx
        · simp
        · exact hi.nonempty x (by simp [hx])
      · intro x hx
        rcases List.mem_cons.1 hx with rfl | hx
        · intro y hy
          rcases List.mem_append.1 hy with hy | hy
          · exact hi.small g (by simp) y hy
          · simp only [List.mem_singleton] at hy; subst hy; exact hes
        · exact hi.small x (by simp [hx])
      · simp only [Groups.relocs, flatMap_reverse_cons, blockRelocs_append, List.append_assoc]
        rw [hsame, hent]
      · exact heven
      · intro x hx
        rcases List.mem_cons.1 hx with rfl | hx
        · exact hord g (by simp)
        · exact hord x (by simp [hx])
      · simp; omega
    · rw [if_neg hsame]
      simp only [Res.bind_eq]
      rw [padBlock_eq g _ (hcnt g (by simp))]
      simp only [Res.ok_bind]
      have hlt : g.1 < r.virtualAddress / 4096 * 4096 := by
        have := hord g (by simp); omega
      rw [if_pos hlt]
      refine ⟨_, (r.virtualAddress / 4096 * 4096, [entry r.virtualAddress r.typ]) ::
        (g.1, g.2 ++ List.replicate (g.2.length % 2) 0) :: gs, rfl, ⟨by simp, ?_, ?_, ?_, ?_⟩, ?_, ?_, ?_, ?_⟩
      · rw [flatMap_reverse_cons, flatMap_reverse_cons, hr]; simp
      · intro x hx
        rcases List.mem_cons.1 hx with rfl | hx
        · dsimp only; omega
        rcases List.mem_cons.1 hx with rfl | hx
        · exact hg
        · exact hi.va x (by simp [hx])
      · intro x hx
        rcases List.mem_cons.1 hx with rfl | hx
        · simp
        rcases List.mem_cons.1 hx with rfl | hx
        · have := hi.nonempty g (by simp); simp; omega
        · exact hi.nonempty x (by simp [hx])
      · intro x hx
        rcases List.mem_cons.1 hx with rfl | hx
        · simp [hes]
        rcases List.mem_cons.1 hx with rfl | hx
        · intro y hy
          rcases List.mem_append.1 hy with hy | hy
          · exact hi.small g (by simp) y hy
          · rw [List.eq_of_mem_replicate hy]; omega
        · exact hi.small x (by simp [hx])
      · simp only [Groups.relocs, flatMap_reverse_cons, blockRelocs_pad, hent]
      · intro x hx
        simp only [List.tail_cons, List.mem_cons] at hx
        rcases hx with rfl | hx
        · simp; omega
        · exact heven x (by simpa using hx)
      · intro x hx
        rcases List.mem_cons.1 hx with rfl | hx
        · dsimp only; omega
        rcases List.mem_cons.1 hx with rfl | hx
        · exact hord g (by simp)
        · exact hord x (by simp [hx])
      · simp; omega

theorem groups_len_le {w : RelocWriter} {gs : Groups} (hi : WInv w gs) {g : Nat × List Nat} (hg : g ∈ gs) :
    g.2.length ≤ w.relocs.length := by
  rw [hi.relocs]
  have : g ∈ gs.reverse := by simpa using hg
  generalize gs.reverse = l at this
  induction l with
  | nil => simp at this
  | cons x l ih =>
    rw [List.flatMap_cons, List.length_append]
    rcases List.mem_cons.1 this with rfl | h
    · omega
    · have := ih h; omega

/-- Adding relocations in page order. -/
theorem addAll_spec (rs : List Reloc) : ∀ {w : RelocWriter} {gs : Groups}, WInv w gs →
    (∀ r ∈ rs, r.virtualAddress < U32 ∧ r.typ < 16 ∧ entry r.virtualAddress r.typ ≠ 0) →
    rs.Pairwise (fun a b => a.virtualAddress / 4096 ≤ b.virtualAddress / 4096) →
    (∀ r ∈ rs, ∀ g ∈ gs, g.1 / 4096 ≤ r.virtualAddress / 4096) →
    (∀ g ∈ gs.tail, g.2.length % 2 = 0) →
    w.relocs.length + 4 * gs.length + 6 * rs.length + 1 < U32 →
    ∃ w' gs', w.addAll rs = .ok w' ∧ WInv w' gs' ∧ gs'.relocs = gs.relocs ++ rs ∧
      (∀ g ∈ gs'.tail, g.2.length % 2 = 0) ∧
      w'.relocs.length + 4 * gs'.length ≤ w.relocs.length + 4 * gs.length + 6 * rs.length := by
  induction rs with
  | nil => intro w gs hi _ _ _ he hc; exact ⟨w, gs, rfl, hi, by simp, he, by simp⟩
  | cons r rs ih =>
    intro w gs hi hr hp ho he hc
    simp only [List.length_cons] at hc
    obtain ⟨h1, h2, h3⟩ := hr r (by simp)
    have hcnt : ∀ g ∈ gs, g.2.length + 1 < U32 := by
      intro g hg; have := groups_len_le hi hg; omega
    have hord : ∀ g ∈ gs, g.1 ≤ r.virtualAddress := by
      intro g hg
      have a := ho r (by simp) g hg
      have b := (hi.va g hg).2
      omega
    obtain ⟨w', gs', e1, e2, e3, e4, e5, e6⟩ := add_spec hi r h1 h2 h3 hord he hcnt
    have hp' := List.pairwise_cons.1 hp
    have ho' : ∀ r' ∈ rs, ∀ g ∈ gs', g.1 / 4096 ≤ r'.virtualAddress / 4096 := by
      intro r' hr' g hg
      have a := e5 g hg
      have b := hp'.1 r' hr'
      have : g.1 / 4096 ≤ r.virtualAddress / 4096 := Nat.div_le_div_right a
      omega
    obtain ⟨w'', gs'', k1, k2, k3, k4, k5⟩ := ih e2 (fun x hx => hr x (by simp [hx])) hp'.2 ho' e4 (by omega)
    refine ⟨w'', gs'', ?_, k2, ?_, k4, ?_⟩
    · simp [RelocWriter.addAll, e1, k1]
    · rw [k3, e3]; simp
    · simp only [List.length_cons]; omega

/-- Total size of the blocks. -/
def Groups.size (gs : Groups) : Nat := (gs.map fun g => 8 + g.2.length * 2).sum

theorem groups_size_le {w : RelocWriter} {gs : Groups} (hi : WInv w gs) :
    gs.size = 8 * gs.length + 2 * w.relocs.length := by
  rw [hi.relocs]
  unfold Groups.size
  have : (gs.map fun g => 8 + g.2.length * 2).sum = (gs.reverse.map fun g => 8 + g.2.length * 2).sum := by
    apply List.Perm.sum_nat
    exact (List.reverse_perm gs).symm.map _
  rw [this, ← List.length_reverse (as := gs)]
  generalize gs.reverse = l
  induction l with
  | nil => rfl
  | cons x l ih =>
    simp only [List.map_cons, List.sum_cons, ih, List.length_cons, List.flatMap_cons, List.length_append]
    omega

theorem sumU32_spec (l : List Nat) : ∀ (acc : Nat), acc + l.sum < U32 → sumU32 (l.map .ok) acc = .ok (acc + l.sum) := by
  induction l with
  | nil => intro acc _; simp [sumU32]
  | cons x l ih =>
    intro acc h
    simp only [List.sum_cons] at h
    simp only [List.map_cons, sumU32, Res.bind_eq, Res.ok_bind]
    rw [if_neg (by omega), ih _ (by omega)]
    simp; omega

theorem writeBlocks_spec (pre : List Nat) : ∀ (l : List (Nat × List Nat)),
    (∀ g ∈ l, 8 + g.2.length * 2 < U32) → ∀ relocs, relocs = pre ++ l.flatMap (·.2) →
    writeBlocks relocs (l.map fun g => ⟨g.1, g.2.length⟩) pre.length = .ok (l.flatMap fun g => encBlock g.1 g.2) := by
  intro l
  induction l generalizing pre with
  | nil => intro _ relocs h; subst h; simp [writeBlocks]
  | cons g l ih =>
    intro hs relocs hr
    have hg := hs g (by simp)
    have hd : relocs.drop pre.length = g.2 ++ l.flatMap (·.2) := by rw [hr]; simp
    have hsz : WBlock.size ⟨g.1, g.2.length⟩ = .ok (8 + g.2.length * 2) := by
      simp only [WBlock.size]; rw [if_neg (by omega), if_neg (by omega)]
    have := ih (pre ++ g.2) (fun x hx => hs x (by simp [hx])) relocs (by rw [hr]; simp)
    rw [List.length_append] at this
    simp only [List.map_cons, writeBlocks, hsz, Res.bind_eq, Res.ok_bind]
    rw [if_neg (by rw [hr]; simp), if_neg (by rw [hd]; simp)]
    simp only [this, Res.ok_bind, hd]
    simp [encBlock, List.flatMap_cons, List.append_assoc]

theorem reserve_write {w : RelocWriter} {gs : Groups} (hi : WInv w gs)
    (he : ∀ g ∈ gs.tail, g.2.length % 2 = 0)
    (hs : 8 * gs.length + 2 * w.relocs.length + 2 < U32) :
    ∃ w' gs' size, w.reserve = .ok (w', size) ∧ w'.write = .ok (Groups.bytes gs') ∧ (Groups.bytes gs').length = size ∧
      size ≤ 8 * gs.length + 2 * w.relocs.length + 2 ∧ gs'.relocs = gs.relocs ∧ WInv w' gs' ∧ (∀ g ∈ gs', g.2.length % 2 = 0 ∧ 8 + g.2.length * 2 < U32) := by
  have fin : ∀ (w' : RelocWriter) (gs' : Groups), WInv w' gs' → gs'.size < U32 →
      sumU32 (w'.blocks.reverse.map WBlock.size) 0 = .ok gs'.size ∧ w'.write = .ok (Groups.bytes gs') ∧
      (Groups.bytes gs').length = gs'.size ∧ (∀ g ∈ gs', 8 + g.2.length * 2 < U32) := by
    intro w' gs' hi' hsz
    have hall : ∀ g ∈ gs', 8 + g.2.length * 2 < U32 := by
      intro g hg
      have h1 := groups_size_le hi'
      have h2 := groups_len_le hi' hg
      have h3 : 0 < gs'.length := List.length_pos_iff.2 (List.ne_nil_of_mem hg)
      omega
    refine ⟨?_, ?_, ?_, hall⟩
    · have e1 : w'.blocks.reverse.map WBlock.size = (gs'.reverse.map fun g => 8 + g.2.length * 2).map .ok := by
        rw [hi'.blocks, ← List.map_reverse, List.map_map, List.map_map]
        apply List.map_congr_left
        intro g hg
        have := hall g (by simpa using hg)
        simp only [Function.comp, WBlock.size]; rw [if_neg (by omega), if_neg (by omega)]
      have e2 : (gs'.reverse.map fun g => 8 + g.2.length * 2).sum = gs'.size := by
        apply List.Perm.sum_nat
        exact (List.reverse_perm gs').map _
      rw [e1, sumU32_spec _ 0 (by rw [e2]; omega), e2]; simp
    · have := writeBlocks_spec [] gs'.reverse (fun g hg => hall g (by simpa using hg)) w'.relocs (by rw [hi'.relocs]; simp)
      unfold RelocWriter.write
      rw [hi'.blocks, ← List.map_reverse]
      exact this
    · unfold Groups.bytes
      have e2 : (gs'.reverse.map fun g => 8 + g.2.length * 2).sum = gs'.size := by
        apply List.Perm.sum_nat
        exact (List.reverse_perm gs').map _
      rw [← e2]
      generalize gs'.reverse = l
      induction l with
      | nil => rfl
      | cons x l ih => rw [List.flatMap_cons, List.length_append, length_encBlock, ih]; simp
  match gs, hi, he, hs with
  | [], hi, he, hs =>
    have hb := hi.blocks
    simp only [List.map_nil] at hb
    obtain ⟨f1, f2, f3, f4⟩ := fin w [] hi (by simp [Groups.size])
    refine ⟨w, [], Groups.size [], ?_, f2, f3, Nat.zero_le _, rfl, hi, by simp⟩
    unfold RelocWriter.reserve
    rw [hb]
    simp only [Res.bind_eq, Res.ok_bind]
    rw [f1]; rfl
  | g :: gs, hi, he, hs =>
    have hb := hi.blocks
    simp only [List.map_cons] at hb
    have hgl := groups_len_le hi (g := g) (by simp)
    have hr := hi.relocs
    rw [flatMap_reverse_cons] at hr
    have hi' : WInv ⟨⟨g.1, (g.2 ++ List.replicate (g.2.length % 2) 0).length⟩ :: gs.map (fun g => ⟨g.1, g.2.length⟩),
        w.relocs ++ List.replicate (g.2.length % 2) 0⟩ ((g.1, g.2 ++ List.replicate (g.2.length % 2) 0) :: gs) := by
      refine ⟨rfl, ?_, ?_, ?_, ?_⟩
      · rw [flatMap_reverse_cons, hr]; simp
      · intro x hx
        rcases List.mem_cons.1 hx with rfl | hx
        · exact hi.va g (by simp)
        · exact hi.va x (by simp [hx])
      · intro x hx
        rcases List.mem_cons.1 hx with rfl | hx
        · have := hi.nonempty g (by simp); simp; omega
        · exact hi.nonempty x (by simp [hx])
      · intro x hx
        rcases List.mem_cons.1 hx with rfl | hx
        · intro y hy
          rcases List.mem_append.1 hy with hy | hy
          · exact hi.small g (by simp) y hy
          · rw [List.eq_of_mem_replicate hy]; omega
        · exact hi.small x (by simp [hx])
    have hlen : (w.relocs ++ List.replicate (g.2.length % 2) 0).length ≤ w.relocs.length + 1 := by simp; omega
    have hsz := groups_size_le hi'
    simp only [List.length_cons] at hsz hs
    obtain ⟨f1, f2, f3, f4⟩ := fin _ _ hi' (by omega)
    refine ⟨_, _, _, ?_, f2, f3, by rw [List.length_cons]; omega, ?_, hi', ?_⟩
    · unfold RelocWriter.reserve
      rw [hb]
      simp only [Res.bind_eq]
      rw [padBlock_eq g _ (by omega)]
      simp only [Res.ok_bind]
      rw [f1]; rfl
    · simp only [Groups.relocs, flatMap_reverse_cons, blockRelocs_pad]
    · intro x hx
      refine ⟨?_, f4 x hx⟩
      rcases List.mem_cons.1 hx with rfl | hx
      · simp; omega
      · exact he x (by simpa using hx)

end Obj.Pe
