import Verif.Proof.PeReloc

/-! # C28, C29: PE base relocations -/

namespace Obj.Props
open Obj Obj.Pe

/-- A block image: `va`, the total size, and an even positive number of 16-bit entries (little endian). -/
def BlockImage (b : RelocBlockData) (img : List UInt8) : Prop :=
  img.length = b.size ∧ b.size = 8 + 2 * b.relocs.length ∧ 8 < b.size ∧ b.size % 4 = 0 ∧
  rd .little (img.take 4) = b.virtualAddress ∧ rd .little ((img.drop 4).take 4) = b.size ∧
  ∀ i r, b.relocs[i]? = some r → rd .little ((img.drop (8 + 2 * i)).take 2) = r

theorem drop_flatMap_wr (es : List Nat) : ∀ (i : Nat), (es.flatMap (wr .little 2)).drop (2 * i) = (es.drop i).flatMap (wr .little 2) := by
  induction es with
  | nil => intro i; simp
  | cons x es ih =>
    intro i
    cases i with
    | zero => simp
    | succ i =>
      rw [List.flatMap_cons, List.drop_append, List.drop_of_length_le (by simp; omega), length_wr, List.drop_succ_cons, List.nil_append]
      have : 2 * (i + 1) - 2 = 2 * i := by omega
      rw [this, ih]

theorem blockImage_enc (b : RelocBlockData) (hva : b.virtualAddress < U32) (hes : ∀ x ∈ b.relocs, x < U16)
    (h0 : 0 < b.relocs.length) (he : b.relocs.length % 2 = 0) (hs : b.size = 8 + b.relocs.length * 2)
    (hl : b.size < U32) : BlockImage b (encBlock b.virtualAddress b.relocs) := by
  have hf0 := field_encode_zero .little 4 b.virtualAddress [(4, 8 + b.relocs.length * 2)] (b.relocs.flatMap (wr .little 2)) (by omega)
  have hf4 := field_encode_succ .little 4 b.virtualAddress [(4, 8 + b.relocs.length * 2)] (b.relocs.flatMap (wr .little 2)) 4 4 (by omega)
  rw [field_encode_zero .little 4 _ [] _ (by omega)] at hf4
  refine ⟨by rw [length_encBlock]; omega, by omega, by omega, by omega, ?_, ?_, ?_⟩
  · simpa [field, encBlock] using hf0
  · rw [hs]; exact hf4
  · intro i r hr
    have hi : i < b.relocs.length := by
      rcases Nat.lt_or_ge i b.relocs.length with h | h
      · exact h
      · rw [List.getElem?_eq_none h] at hr; cases hr
    have h8 : (encode .little [(4, b.virtualAddress), (4, 8 + b.relocs.length * 2)]).length = 8 := by simp
    have hd : (encBlock b.virtualAddress b.relocs).drop (8 + 2 * i) = (b.relocs.drop i).flatMap (wr .little 2) := by
      unfold encBlock
      rw [List.drop_append, List.drop_of_length_le (by omega), h8, List.nil_append]
      have : 8 + 2 * i - 8 = 2 * i := by omega
      rw [this, drop_flatMap_wr]
    rw [hd, List.drop_eq_getElem_cons hi, List.flatMap_cons, List.take_append_of_le_length (by simp),
      List.take_of_length_le (by simp)]
    rw [List.getElem?_eq_getElem hi, Option.some.injEq] at hr
    rw [hr]
    exact rd_wr .little 2 r (by have := hes r (List.mem_of_getElem? (by rw [List.getElem?_eq_getElem hi, hr])); omega)

/-- C29: parsing the base relocation blocks of any data terminates without panicking.  The data is
the images of the blocks reported, back to back, followed by `rest`; the iteration ends normally exactly
when nothing is left, and with an error exactly when the non-empty `rest` does not begin with a block
image. -/
theorem C29_blocks (data : List UInt8) :
    ∃ (bs : List RelocBlockData) (imgs : List (List UInt8)) (rest : List UInt8) (e : End),
      Runs nextBlock data bs e ∧ e ≠ .panic ∧
      data = imgs.flatten ++ rest ∧ bs.length = imgs.length ∧
      (∀ (i : Nat) b img, bs[i]? = some b → imgs[i]? = some img → BlockImage b img) ∧
      (e = .done ↔ rest = []) ∧
      (e = .err → rest ≠ [] ∧ ¬ ∃ b img tl, rest = img ++ tl ∧ BlockImage b img) := by
  generalize hn : data.length = n
  induction n using Nat.strongRecOn generalizing data with
  | _ n ih =>
  subst hn
  by_cases h0 : data = []
  · subst h0
    exact ⟨[], [], [], .done, .done fuseNext_nil, by simp, by simp, rfl, by simp, by simp, by simp⟩
  match hp : parseBlock data with
  | (.panic, d) => exact absurd (by rw [hp]) (parseBlock_no_panic data)
  | (.err, d) =>
    refine ⟨[], [], data, .err, .err (s' := []) (by simp [nextBlock, fuseNext, h0, hp]), by simp, by simp, rfl, by simp,
      by simp [h0], fun _ => ⟨h0, ?_⟩⟩
    rintro ⟨b, img, tl, hd, h1, h2, h3, h4, h5, h6, h7⟩
    have hle : b.size ≤ img.length := by omega
    have hread : Bytes.read data 8 = (.ok (img.take 8), data.drop 8) := by
      unfold Bytes.read Bytes.readBytes
      rw [if_pos (by rw [hd]; simp; omega), hd, List.take_append_of_le_length (by omega)]
    have f4 : field .little (img.take 8) 4 4 = b.size := by
      rw [← h6]; unfold field
      rw [List.drop_take, List.take_take]; simp
    unfold parseBlock at hp
    simp only [hread, f4, and3] at hp
    rw [if_neg (by omega)] at hp
    unfold Bytes.readSlice at hp
    have hcond : (b.size - 8) / 2 * 2 < U64 ∧ (b.size - 8) / 2 * 2 ≤ (data.drop 8).length := by
      have : b.size < 256 ^ 4 := by
        rw [← f4]; exact field_lt ..
      refine ⟨by omega, ?_⟩
      rw [hd]; simp; omega
    rw [if_pos hcond] at hp
    simp at hp
  | (.ok b, d) =>
    obtain ⟨g1, g2, g3, g4, g5, g6, g7⟩ := parseBlock_ok hp
    obtain ⟨bs, imgs, rest, e, k1, k2, k3, k4, k5, k6, k7⟩ := ih d.length (parseBlock_consumes hp) d rfl
    refine ⟨b :: bs, encBlock b.virtualAddress b.relocs :: imgs, rest, e, .item (fuseNext_item h0 hp) k1, k2, ?_, by simp [k4], ?_, k6, k7⟩
    · conv => lhs; rw [g1, k3]
      simp
    · intro i b' img' hb hi
      cases i with
      | zero =>
        simp only [List.getElem?_cons_zero, Option.some.injEq] at hb hi
        subst hb hi
        exact blockImage_enc b g2 g3 g4 g5 g6 g7
      | succ i => exact k5 i b' img' (by simpa using hb) (by simpa using hi)

/-- C29: an error ends the iteration. -/
theorem C29_fused (d d' : List UInt8) (h : nextBlock d = (.err, d')) : nextBlock d' = (.ok none, []) :=
  fuseNext_fused h

/-- C29: the relocations of a block are its non-zero entries in order: low 12 bits added to the page
address (modulo 2^32), high 4 bits the type. -/
theorem C29_relocs (b : RelocBlockData) :
    Runs RelocBlockData.next b
      ((b.relocs.filter (· ≠ 0)).map fun r => ⟨(b.virtualAddress + r % 4096) % 2 ^ 32, r / 4096⟩) .done :=
  relocLoop_runs b.virtualAddress b.size b.relocs

example : Runs nextBlock [0, 0x10, 0, 0, 12, 0, 0, 0, 4, 0x30, 0, 0] [⟨0x1000, 12, [0x3004, 0]⟩] .done :=
  .item (s' := []) (by decide) (.done fuseNext_nil)

/-- C28: relocations with a 4-bit type (a zero type at a page start is the padding entry and excluded),
added in order of their pages, are accepted without a panic; the bytes written for the section have
exactly the size reserved, and reading them back as blocks gives, over all blocks in order, exactly the
relocations added. Every block is a multiple of 4 bytes.  Bound: the section size fits in 32 bits
(6 entries of 2 bytes per relocation is a safe over-approximation). -/
theorem C28_round_trip (rs : List Reloc)
    (hr : ∀ r ∈ rs, r.virtualAddress < 2 ^ 32 ∧ r.typ < 16 ∧ (r.typ = 0 → r.virtualAddress % 4096 ≠ 0))
    (hp : rs.Pairwise (fun a b => a.virtualAddress / 4096 ≤ b.virtualAddress / 4096))
    (hn : 12 * rs.length + 2 < 2 ^ 32) :
    ∃ w w' size bytes bs,
      RelocWriter.new.addAll rs = .ok w ∧ w.reserve = .ok (w', size) ∧ w'.write = .ok bytes ∧
      bytes.length = size ∧ size ≤ 12 * rs.length + 2 ∧
      Runs nextBlock bytes bs .done ∧ (∀ b ∈ bs, b.size % 4 = 0) ∧
      ∃ rss : List (List Reloc), rss.length = bs.length ∧
        (∀ (i : Nat) b l, bs[i]? = some b → rss[i]? = some l → Runs RelocBlockData.next b l .done) ∧
        rss.flatten = rs := by
  have hi0 : WInv RelocWriter.new [] := ⟨rfl, rfl, by simp, by simp, by simp⟩
  obtain ⟨w, gs, e1, e2, e3, e4, e5⟩ := addAll_spec rs hi0
    (fun r h => ⟨by have := (hr r h).1; simpa using this, (hr r h).2.1, by
      intro hz
      have h0 : r.typ = 0 := by unfold entry at hz; omega
      have := (hr r h).2.2 h0
      unfold entry at hz; omega⟩) hp (by simp) (by simp) (by simp [RelocWriter.new]; omega)
  simp only [RelocWriter.new, List.length_nil] at e5
  obtain ⟨w', gs', size, k1, k2, k3, ksz, k4, k5, k6⟩ := reserve_write e2 e4 (by omega)
  have hround := fuse_round_trip (parse := parseBlock) (fun g : Nat × List Nat => encBlock g.1 g.2)
    (fun g => (⟨g.1, 8 + g.2.length * 2, g.2⟩ : RelocBlockData)) gs'.reverse
    (fun g hg => by
      intro h
      have := congrArg List.length h
      simp [length_encBlock] at this)
    (fun g hg tl => by
      have hg' : g ∈ gs' := by simpa using hg
      exact parseBlock_enc g.1 g.2 tl (k5.va g hg').1 (k5.small g hg') (k5.nonempty g hg') (k6 g hg').1 (k6 g hg').2)
  refine ⟨w, w', size, _, _, e1, k1, k2, k3, by omega, hround, ?_, gs'.reverse.map (fun g => blockRelocs g.1 g.2), by simp, ?_, ?_⟩
  · intro b hb
    simp only [List.mem_map] at hb
    obtain ⟨g, hg, rfl⟩ := hb
    have := (k6 g (by simpa using hg)).1
    dsimp only; omega
  · intro i b l hb hl
    rw [List.getElem?_map] at hb hl
    cases hg : gs'.reverse[i]? with
    | none => rw [hg] at hb; cases hb
    | some g =>
      rw [hg] at hb hl
      simp only [Option.map_some, Option.some.injEq] at hb hl
      subst hb hl
      exact relocLoop_runs _ _ _
  · have h1 : gs'.relocs = rs := by rw [k4, e3]; simp [Groups.relocs]
    rw [← h1, Groups.relocs, List.flatMap_def]

example : ∀ r ∈ [(⟨0x1004, 3⟩ : Reloc), ⟨0x1001, 10⟩, ⟨0x3000, 3⟩],
    r.virtualAddress < 2 ^ 32 ∧ r.typ < 16 ∧ (r.typ = 0 → r.virtualAddress % 4096 ≠ 0) := by decide
example : [(⟨0x1004, 3⟩ : Reloc), ⟨0x1001, 10⟩, ⟨0x3000, 3⟩].Pairwise
    (fun a b => a.virtualAddress / 4096 ≤ b.virtualAddress / 4096) := by decide

/-- The excluded case is real: a relocation of type 0 at the start of a page is written as the padding
entry and is not read back. -/
theorem C28_type0_page_start_lost :
    (RelocWriter.new.add 0x1000 0).bind (fun w => w.reserve) = .ok (⟨[⟨0x1000, 2⟩], [0, 0]⟩, 12) := by
  decide

/-- Out-of-order pages are refused (debug assertion), so the ordering hypothesis is the documented one. -/
theorem C28_out_of_order_panics :
    (RelocWriter.new.add 0x2000 3).bind (fun w => w.add 0x1000 3) = .panic := by decide

end Obj.Props
