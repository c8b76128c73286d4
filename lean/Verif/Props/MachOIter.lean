import Verif.Model.MachOIter
import Verif.Proof.Iter
import Verif.Proof.Endian

/-! # C26, C27: Mach-O function starts and load commands -/

namespace Obj.Props
open Obj Obj.MachO Obj.Spec

/-- The running sums of `ds` from `a`. -/
def runningSums : Nat → List Nat → List Nat
  | _, [] => []
  | a, d :: ds => (a + d) :: runningSums (a + d) ds

/-- C26: iterating the function starts of any data terminates without panicking.  The data is a sequence
of LEB128 groups `gs` with non-zero values followed by `rest`; the addresses are the running sums of the
values starting at the segment address, all below `2^64`; the iteration ends normally exactly when
`rest` is empty or begins with a group of value zero, and otherwise with an error. -/
theorem C26_function_starts (data : List UInt8) (addr : Nat) (ha : addr < U64) :
    ∃ (xs : List Nat) (e : End) (gs : List (List UInt8)) (rest : List UInt8),
      Runs FnStarts.next ⟨data, addr⟩ xs e ∧ e ≠ .panic ∧
      data = gs.flatten ++ rest ∧
      (∀ g ∈ gs, LebGroup g ∧ g.length ≤ 10 ∧ ulebValue g ≠ 0) ∧
      xs = runningSums addr (gs.map ulebValue) ∧
      (∀ x ∈ xs, x < U64) ∧
      (e = .done ↔ rest = [] ∨ ∃ g tl, rest = g ++ tl ∧ LebGroup g ∧ g.length ≤ 10 ∧ ulebValue g = 0) ∧
      (e = .err ↔ rest ≠ [] ∧ ∀ g tl, rest = g ++ tl → LebGroup g → g.length ≤ 10 → 
        ulebValue g ≠ 0 ∧ U64 ≤ (addr :: xs).getLast (by simp) + ulebValue g) := by
  generalize hn : data.length = n
  induction n using Nat.strongRecOn generalizing data addr with
  | _ n ih =>
  subst hn
  by_cases h0 : data = []
  · subst h0
    refine ⟨[], .done, [], [], .done (s' := ⟨[], addr⟩) (by simp [FnStarts.next]), by simp, by simp, by simp, rfl, by simp, by simp, by simp⟩
  match hu : Bytes.readUleb data with
  | (.panic, r) => exact absurd (by rw [hu]) (readUleb_no_panic data)
  | (.err, r) =>
    have hno : ∀ g tl, data = g ++ tl → LebGroup g → g.length ≤ 10 → U64 ≤ ulebValue g := by
      intro g tl hd hG hl
      rcases Nat.lt_or_ge (ulebValue g) U64 with h | h
      · exfalso
        have := (readUleb_ok_iff data (ulebValue g) tl).2 ⟨g, hd, hG, hl, rfl, h⟩
        rw [hu] at this; cases this
      · exact h
    refine ⟨[], .err, [], data, .err (s' := ⟨[], addr⟩) (by simp [FnStarts.next, h0, FnStarts.parse, hu]), by simp, by simp,
      by simp, rfl, by simp, ?_, ?_⟩
    · simp only [reduceCtorEq, false_iff, not_or]
      refine ⟨h0, ?_⟩
      rintro ⟨g, tl, hd, hG, hl, hv⟩
      have := hno g tl hd hG hl
      omega
    · simp only [true_iff]
      refine ⟨h0, fun g tl hd hG hl => ?_⟩
      have := hno g tl hd hG hl
      exact ⟨by omega, by simp; omega⟩
  | (.ok delta, r) =>
    obtain ⟨g, hd, hG, hl, hv, hlt⟩ := (readUleb_ok_iff ..).1 hu
    have huniq : ∀ g' tl', data = g' ++ tl' → LebGroup g' → g'.length ≤ 10 → ulebValue g' < U64 → ulebValue g' = delta := by
      intro g' tl' hd' hG' hl' h'
      have := (readUleb_ok_iff data (ulebValue g') tl').2 ⟨g', hd', hG', hl', rfl, h'⟩
      rw [hu] at this
      simp only [Prod.mk.injEq, Res.ok.injEq] at this
      exact this.1.symm
    by_cases hz : delta = 0
    · refine ⟨[], .done, [], data, .done (s' := ⟨[], addr⟩) (by simp [FnStarts.next, h0, FnStarts.parse, hu, hz]), by simp, by simp,
        by simp, rfl, by simp, ?_, ?_⟩
      · simp only [true_iff]
        exact .inr ⟨g, r, hd, hG, hl, by omega⟩
      · simp only [reduceCtorEq, false_iff, not_and, Classical.not_forall]
        intro _
        exact ⟨g, r, hd, hG, hl, by omega⟩
    · by_cases ho : U64 ≤ addr + delta
      · refine ⟨[], .err, [], data, .err (s' := ⟨[], addr⟩) (by simp [FnStarts.next, h0, FnStarts.parse, hu, hz, ho]), by simp,
          by simp, by simp, rfl, by simp, ?_, ?_⟩
        · simp only [reduceCtorEq, false_iff, not_or]
          refine ⟨h0, ?_⟩
          rintro ⟨g', tl, hd', hG', hl', hv'⟩
          have := huniq g' tl hd' hG' hl' (by omega)
          omega
        · simp only [true_iff]
          refine ⟨h0, fun g' tl hd' hG' hl' => ?_⟩
          rcases Nat.lt_or_ge (ulebValue g') U64 with h | h
          · have := huniq g' tl hd' hG' hl' h
            exact ⟨by omega, by simp; omega⟩
          · exact ⟨by omega, by simp; omega⟩
      · obtain ⟨xs, e, gs, rest, h1, h2, h3, h4, h5, h6, h7, h8⟩ :=
          ih r.length (readUleb_consumes hu) r (addr + delta) (by omega) rfl
        refine ⟨(addr + delta) :: xs, e, g :: gs, rest, .item (s' := ⟨r, addr + delta⟩) ?_ h1, h2, ?_, ?_, ?_, ?_, h7, ?_⟩
        · simp only [FnStarts.next, h0, FnStarts.parse, hu, if_neg hz, if_neg ho, if_false]
        · rw [hd, h3]; simp
        · intro g' hg'
          rcases List.mem_cons.1 hg' with rfl | hg'
          · exact ⟨hG, hl, by omega⟩
          · exact h4 g' hg'
        · simp [runningSums, hv, h5]
        · intro x hx
          rcases List.mem_cons.1 hx with rfl | hx
          · omega
          · exact h6 x hx
        · rw [h8]; simp

/-- C26: the addresses are strictly increasing and all above the segment address. -/
theorem C26_strictly_increasing (data : List UInt8) (addr : Nat) (ha : addr < U64) (xs : List Nat) (e : End)
    (h : Runs FnStarts.next ⟨data, addr⟩ xs e) : (addr :: xs).Pairwise (· < ·) := by
  obtain ⟨xs', e', gs, rest, h1, _, _, h4, h5, _⟩ := C26_function_starts data addr ha
  obtain ⟨rfl, rfl⟩ := h.unique h1
  have key : ∀ (gs : List (List UInt8)) (a : Nat), (∀ g ∈ gs, ulebValue g ≠ 0) →
      (a :: runningSums a (gs.map ulebValue)).Pairwise (· < ·) := by
    intro gs
    induction gs with
    | nil => intro a _; simp [runningSums]
    | cons g gs ih =>
      intro a hg
      have hp := ih (a + ulebValue g) (fun g' hg' => hg g' (by simp [hg']))
      have hnz := hg g (by simp)
      simp only [List.map_cons, runningSums]
      refine List.pairwise_cons.2 ⟨?_, hp⟩
      intro x hx
      rcases List.mem_cons.1 hx with rfl | hx
      · omega
      · have := (List.pairwise_cons.1 hp).1 x hx
        omega
  rw [h5]
  exact key gs addr (fun g hg => (h4 g hg).2.2)

example : Runs FnStarts.next ⟨[0x80, 0x02, 0x05, 0x00, 0x07], 0x1000⟩ [0x1100, 0x1105] .done :=
  .item (s' := ⟨[5, 0, 7], 0x1100⟩) (by rfl) (.item (s' := ⟨[0, 7], 0x1105⟩) (by rfl) (.done (s' := ⟨[], 0x1105⟩) (by rfl)))

/-- C26: an error ends the iteration. -/
theorem C26_fused (s s' : FnStarts) (h : s.next = (.err, s')) : s'.next = (.ok none, s') := by
  unfold FnStarts.next at h
  by_cases h0 : s.data = []
  · rw [if_pos h0] at h; simp at h
  · rw [if_neg h0] at h
    match hp : s.parse with
    | (.err, s'') =>
      rw [hp] at h
      simp only [Prod.mk.injEq, true_and] at h
      subst h
      simp [FnStarts.next]
    | (.ok x, s'') => rw [hp] at h; simp at h
    | (.panic, s'') => rw [hp] at h; simp at h

/-- C26: any list of addresses with positive gaps, written as ULEB128 gaps ended by zero, is read back. -/
theorem C26_round_trip (ds : List Nat) (addr : Nat) (hd : ∀ d ∈ ds, d ≠ 0) (hs : addr + ds.sum < U64)
    (tl : List UInt8) :
    Runs FnStarts.next ⟨ds.flatMap uleb ++ uleb 0 ++ tl, addr⟩ (runningSums addr ds) .done := by
  induction ds generalizing addr with
  | nil =>
    simp only [List.flatMap_nil, List.nil_append, runningSums]
    have hu := readUleb_uleb 0 (by omega) tl
    refine .done (s' := ⟨[], addr⟩) ?_
    have hne : uleb 0 ++ tl ≠ [] := by
      intro h; rw [h] at hu; simp [Bytes.readUleb, Bytes.readUlebLoop] at hu
    simp only [FnStarts.next, if_neg hne, FnStarts.parse, hu, if_true]
  | cons d ds ih =>
    simp only [List.flatMap_cons, List.append_assoc, runningSums, List.sum_cons] at *
    have hu := readUleb_uleb d (by omega) (ds.flatMap uleb ++ (uleb 0 ++ tl))
    refine .item (s' := ⟨ds.flatMap uleb ++ (uleb 0 ++ tl), addr + d⟩) ?_
      (ih (addr + d) (fun d hd' => hd d (by simp [hd'])) (by omega))
    have hne : uleb d ++ (ds.flatMap uleb ++ (uleb 0 ++ tl)) ≠ [] := by
      intro h; rw [h] at hu; simp [Bytes.readUleb, Bytes.readUlebLoop] at hu
    simp only [FnStarts.next, if_neg hne, FnStarts.parse, hu, if_neg (hd d (by simp)),
      if_neg (show ¬ U64 ≤ addr + d by omega)]

/-! ## Load commands -/

/-- The bytes `c` form one load command whose fields are `cmd` and its own length. -/
def IsLoadCommand (en : Endianness) (c : List UInt8) : Prop := 8 ≤ c.length ∧ field en c 4 4 = c.length

/-- What the iterator should report for consecutive commands starting at file offset `off`. -/
def commandList (en : Endianness) : Nat → List (List UInt8) → List LoadCommandData
  | _, [] => []
  | off, c :: cs => ⟨field en c 0 4, off, c⟩ :: commandList en (off + c.length) cs

/-- C27: iterating the load commands of any data terminates without panicking.  The commands reported are
the consecutive well-formed commands `cs` at the start of the data, with their file offsets; at most
`ncmds` of them; the iteration ends normally exactly when all `ncmds` were reported, and with an error
exactly when fewer were and the rest of the data does not begin with a well-formed command. -/
theorem C27_load_commands (en : Endianness) (data : List UInt8) (ncmds off : Nat)
    (ho : off + data.length < U64) :
    ∃ (cs : List (List UInt8)) (rest : List UInt8) (e : End),
      Runs (LoadCommands.next en) ⟨data, ncmds, off⟩ (commandList en off cs) e ∧ e ≠ .panic ∧
      data = cs.flatten ++ rest ∧ (∀ c ∈ cs, IsLoadCommand en c) ∧
      cs.length ≤ ncmds ∧
      (e = .done ↔ cs.length = ncmds) ∧
      (e = .err ↔ cs.length < ncmds ∧ ¬ ∃ c tl, rest = c ++ tl ∧ IsLoadCommand en c) := by
  induction ncmds generalizing data off with
  | zero =>
    exact ⟨[], data, .done, .done (s' := ⟨data, 0, off⟩) (by simp [LoadCommands.next]), by simp, by simp,
      by simp, by simp, by simp, by simp⟩
  | succ n ih =>
    by_cases hw : ∃ c tl, data = c ++ tl ∧ IsLoadCommand en c
    · obtain ⟨c, tl, rfl, h8, hsz⟩ := hw
      have hlen : (c ++ tl).length = c.length + tl.length := by simp
      obtain ⟨cs, rest, e, h1, h2, h3, h4, h5, h6, h7⟩ := ih tl (off + c.length) (by omega)
      have h80 : ((c ++ tl).drop 0).take 8 = c.take 8 := by
        rw [List.drop_zero, List.take_append_of_le_length h8]
      have hf4 : field en (c.take 8) 4 4 = c.length := by
        have := field_append en (c.take 8) (c.drop 8) 4 4 (by simp; omega)
        rw [List.take_append_drop] at this
        rw [← this, hsz]
      have hf0 : field en (c.take 8) 0 4 = field en c 0 4 := by
        have := field_append en (c.take 8) (c.drop 8) 0 4 (by simp; omega)
        rw [List.take_append_drop] at this
        rw [← this]
      have hp : LoadCommands.parse en ⟨c ++ tl, n + 1, off⟩ =
          (.ok ⟨field en c 0 4, off, c⟩, ⟨tl, n + 1, off + c.length⟩) := by
        have hra : Bytes.readAt (c ++ tl) 0 8 = .ok (c.take 8) := by
          simp only [Bytes.readAt, Bytes.readBytesAt, Bytes.skip, Bytes.readBytes, Nat.zero_le, if_true, List.drop_zero]
          rw [if_pos (by simp; omega), List.take_append_of_le_length h8]
        have hrb : Bytes.readBytes (c ++ tl) c.length = (.ok c, tl) := by simp [Bytes.readBytes]
        simp only [LoadCommands.parse, hra, hf4, hf0, if_neg (show ¬ c.length < 8 by omega), hrb,
          if_neg (show ¬ U64 ≤ off + c.length by omega)]
      refine ⟨c :: cs, rest, e, .item (s' := ⟨tl, n, off + c.length⟩) ?_ h1, h2, ?_, ?_, ?_, ?_, ?_⟩
      · simp [LoadCommands.next, hp]
      · rw [h3]; simp
      · intro c' hc'
        rcases List.mem_cons.1 hc' with rfl | hc'
        · exact ⟨h8, hsz⟩
        · exact h4 c' hc'
      · simp; omega
      · rw [h6]; simp
      · rw [h7]; simp
    · refine ⟨[], data, .err, ?_, by simp, by simp, by simp, by simp, by simp, ⟨fun _ => ⟨by simp, hw⟩, fun _ => rfl⟩⟩
      have : ∃ s', LoadCommands.parse en ⟨data, n + 1, off⟩ = (.err, s') := by
        unfold LoadCommands.parse
        by_cases h8 : 8 ≤ data.length
        · have hra : Bytes.readAt data 0 8 = .ok (data.take 8) := by
            simp [Bytes.readAt, Bytes.readBytesAt, Bytes.skip, Bytes.readBytes, h8]
          simp only [hra]
          by_cases hs : field en (data.take 8) 4 4 < 8
          · exact ⟨_, by rw [if_pos hs]⟩
          · rw [if_neg hs]
            by_cases hl : field en (data.take 8) 4 4 ≤ data.length
            · exfalso
              apply hw
              refine ⟨data.take (field en (data.take 8) 4 4), data.drop (field en (data.take 8) 4 4), by simp, ?_, ?_⟩
              · simp; omega
              · have e1 := field_append en (data.take 8) (data.drop 8) 4 4 (by simp; omega)
                rw [List.take_append_drop] at e1
                have e2 := field_append en (data.take (field en (data.take 8) 4 4)) (data.drop (field en (data.take 8) 4 4)) 4 4 (by simp; omega)
                rw [List.take_append_drop] at e2
                rw [← e2, e1]
                simp; omega
            · have hrb : Bytes.readBytes data (field en (data.take 8) 4 4) = (.err, []) := by
                simp [Bytes.readBytes, hl]
              exact ⟨_, by rw [hrb]⟩
        · have hra : Bytes.readAt data 0 8 = .err := by
            simp [Bytes.readAt, Bytes.readBytesAt, Bytes.skip, Bytes.readBytes, h8]
          exact ⟨_, by rw [hra]⟩
      obtain ⟨s', hs'⟩ := this
      exact .err (s' := { s' with ncmds := 0 }) (by simp [LoadCommands.next, hs'])

/-- C27: an error ends the iteration. -/
theorem C27_fused (en : Endianness) (s s' : LoadCommands) (h : s.next en = (.err, s')) :
    s'.next en = (.ok none, s') := by
  unfold LoadCommands.next at h
  by_cases h0 : s.ncmds = 0
  · rw [if_pos h0] at h; simp at h
  · rw [if_neg h0] at h
    match hp : s.parse en with
    | (.err, s'') =>
      rw [hp] at h
      simp only [Prod.mk.injEq, true_and] at h
      subst h
      simp [LoadCommands.next]
    | (.ok x, s'') => rw [hp] at h; simp at h
    | (.panic, s'') => rw [hp] at h; simp at h

example : IsLoadCommand .little [0x1b, 0, 0, 0, 12, 0, 0, 0, 9, 9, 9, 9] := by
  refine ⟨by decide, by decide⟩

end Obj.Props
