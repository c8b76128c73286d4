import Verif.Proof.Note

/-! # C20: ELF notes; C45: GNU properties -/

namespace Obj.Props
open Obj Obj.Elf Obj.Spec

/-- C20: iterating the notes of any data (for any alignment the constructor accepts) terminates without
panicking; the notes returned are exactly the consecutive notes described by the headers from the start
of the data; the iteration ends normally exactly when the next position is at or past the end of the
data, and with an error exactly when there is more data but no well-formed note there. -/
theorem C20_notes (en : Endianness) (a align : Nat) (hal : noteAlign a = .ok align) (data : List UInt8) :
    ∃ ns e stop, Runs (nextNote en align) data ns e ∧ e ≠ .panic ∧
      NotesFrom en align data 0 ns stop ∧
      (e = .done ↔ data.length ≤ stop) ∧
      (e = .err ↔ stop < data.length ∧ ¬ ∃ n next, NoteAt en align data stop n next) := by
  have ha := noteAlign_cases hal
  suffices ∀ m pos, data.length - pos = m →
      ∃ ns e stop, Runs (nextNote en align) (data.drop pos) ns e ∧ e ≠ .panic ∧
      NotesFrom en align data pos ns stop ∧
      (e = .done ↔ data.length ≤ stop) ∧
      (e = .err ↔ stop < data.length ∧ ¬ ∃ n next, NoteAt en align data stop n next) by
    simpa using this _ 0 rfl
  intro m
  induction m using Nat.strongRecOn with
  | _ m ih =>
  intro pos hm
  subst hm
  by_cases h0 : data.length ≤ pos
  · refine ⟨[], .done, pos, .done (s' := []) ?_, by simp, .nil pos, by simp [h0], by simp; omega⟩
    rw [List.drop_of_length_le h0]; exact fuseNext_nil
  have hne : data.drop pos ≠ [] := by simp; omega
  match hp : parseNote en align (data.drop pos) with
  | (.ok n, d') =>
    obtain ⟨next, hn, rfl⟩ := (parseNote_drop_iff en align ha data pos (by omega) n d').1 hp
    have hlt : pos < next := by
      have h1 := (roundUp_spec (roundUp (12 + n.name.length) align + n.desc.length) align (by omega))
      have h2 := (roundUp_spec (12 + n.name.length) align (by omega))
      have := hn.next
      unfold roundUp at this
      simp only at h1 h2
      unfold roundUp at h1
      omega
    obtain ⟨ns, e, stop, k1, k2, k3, k4, k5⟩ := ih (data.length - next) (by omega) next rfl
    exact ⟨n :: ns, e, stop, .item (fuseNext_item hne hp) k1, k2, .cons (by omega) hn k3, k4, k5⟩
  | (.err, d') =>
    refine ⟨[], .err, pos, .err (s' := []) (by simp [nextNote, fuseNext, hne, hp]), by simp, .nil pos, by simp; omega, ?_⟩
    simp only [true_iff]
    refine ⟨by omega, ?_⟩
    rintro ⟨n, next, hn⟩
    have := (parseNote_drop_iff en align ha data pos (by omega) n _).2 ⟨next, hn, rfl⟩
    rw [hp] at this; cases this
  | (.panic, d') =>
    exfalso
    obtain ⟨d, hd⟩ := parseNote_eq en align ha (data.drop pos)
    rw [hp] at hd
    dsimp only at hd
    split at hd <;> cases hd

/-- C20: notes appear in order and do not overlap: each lies before the position of the next. -/
theorem C20_disjoint (en : Endianness) (align : Nat) (ha : align = 4 ∨ align = 8) (data : List UInt8) (pos next : Nat) (n : Note)
    (h : NoteAt en align data pos n next) :
    pos + 12 + n.name.length ≤ pos + roundUp (12 + n.name.length) align ∧
    pos + roundUp (12 + n.name.length) align + n.desc.length ≤ next ∧ (next - pos) % align = 0 := by
  have h1 := (roundUp_spec (roundUp (12 + n.name.length) align + n.desc.length) align (by omega))
  have h2 := (roundUp_spec (12 + n.name.length) align (by omega))
  have := h.next
  simp only at h1 h2
  unfold roundUp at *
  refine ⟨by omega, by omega, ?_⟩
  rw [this, Nat.add_sub_cancel_left]; exact h1.1

/-- C20: an error ends the iteration. -/
theorem C20_fused (en : Endianness) (align : Nat) (d d' : List UInt8) (h : nextNote en align d = (.err, d')) :
    nextNote en align d' = (.ok none, []) := fuseNext_fused h

/-- C20: a sequence of notes laid out by the ELF rules, the last one with or without its final padding, is
read back exactly. -/
theorem C20_round_trip (en : Endianness) (a align : Nat) (hal : noteAlign a = .ok align) (ns : List Note)
    (hns : ∀ n ∈ ns, n.name.length < 2 ^ 32 ∧ n.desc.length < 2 ^ 32 ∧ n.typ < 2 ^ 32) :
    Runs (nextNote en align) (ns.flatMap (noteBytes en align)) ns .done ∧
    ∀ n : Note, n.name.length < 2 ^ 32 → n.desc.length < 2 ^ 32 → n.typ < 2 ^ 32 →
      Runs (nextNote en align) (ns.flatMap (noteBytes en align) ++
        (padTo align (encode en [(4, n.name.length), (4, n.desc.length), (4, n.typ)] ++ n.name) ++ n.desc)) (ns ++ [n]) .done := by
  have ha := noteAlign_cases hal
  have hal0 : 0 < align := by omega
  have one : ∀ (n : Note), n.name.length < 2 ^ 32 → n.desc.length < 2 ^ 32 → n.typ < 2 ^ 32 →
      ∀ tl, parseNote en align (noteBytes en align n ++ tl) = (.ok n, tl) := by
    intro n h1 h2 h3 tl
    have hal0 : 0 < align := by omega
    have := parseNote_bytes en align ha n (by simpa using h1) (by simpa using h2) (by simpa using h3)
      (List.replicate (roundUp (roundUp (12 + n.name.length) align + n.desc.length) align -
        (roundUp (12 + n.name.length) align + n.desc.length)) 0 ++ tl)
    have hb : noteBytes en align n ++ tl = padTo align (encode en [(4, n.name.length), (4, n.desc.length), (4, n.typ)] ++ n.name) ++ n.desc ++
        (List.replicate (roundUp (roundUp (12 + n.name.length) align + n.desc.length) align -
        (roundUp (12 + n.name.length) align + n.desc.length)) 0 ++ tl) := by
      have hlen : (padTo align (encode en [(4, n.name.length), (4, n.desc.length), (4, n.typ)] ++ n.name) ++ n.desc).length =
          roundUp (12 + n.name.length) align + n.desc.length := by
        rw [List.length_append, length_padTo _ hal0, List.length_append, length_encode]; simp
      unfold noteBytes
      rw [padTo, hlen]; simp
    rw [hb, this]
    congr 1
    rw [List.drop_append, List.drop_of_length_le (by simp)]; simp
  have hne : ∀ (n : Note) (tl : List UInt8), noteBytes en align n ++ tl ≠ [] := by
    intro n tl h
    have h1 := congrArg List.length h
    rw [List.length_append, noteBytes, length_padTo _ hal0, List.length_append, length_padTo _ hal0, List.length_append, length_encode] at h1
    have h2 := le_roundUp (roundUp (12 + n.name.length) align + n.desc.length) align hal0
    have h3 := le_roundUp (12 + n.name.length) align hal0
    simp only [List.map_cons, List.map_nil, List.sum_cons, List.sum_nil, List.length_nil, Nat.add_zero, Nat.reduceAdd] at h1
    omega
  constructor
  · have := fuse_round_trip (parse := parseNote en align) (noteBytes en align) id ns
      (fun n _ h => hne n [] (by simpa using h))
      (fun n hn tl => one n (hns n hn).1 (hns n hn).2.1 (hns n hn).2.2 tl)
    rw [List.map_id] at this; exact this
  · intro n h1 h2 h3
    induction ns with
    | nil =>
      simp only [List.flatMap_nil, List.nil_append]
      have hp := parseNote_bytes en align ha n (by simpa using h1) (by simpa using h2) (by simpa using h3) []
      simp only [List.append_nil, List.drop_nil] at hp
      refine .item (s' := []) (fuseNext_item ?_ hp) (.done fuseNext_nil)
      intro h
      have h4 := congrArg List.length h
      rw [List.length_append, length_padTo _ hal0, List.length_append, length_encode] at h4
      have h3 := le_roundUp (12 + n.name.length) align hal0
      simp only [List.map_cons, List.map_nil, List.sum_cons, List.sum_nil, List.length_nil, Nat.add_zero, Nat.reduceAdd] at h4
      omega
    | cons x xs ih =>
      obtain ⟨x1, x2, x3⟩ := hns x (by simp)
      rw [List.flatMap_cons, List.append_assoc, List.cons_append]
      exact .item (fuseNext_item (hne x _) (one x x1 x2 x3 _)) (ih (fun y hy => hns y (by simp [hy])))

example : noteAlign 1 = .ok 4 ∧ noteBytes .little 4 ⟨3, [71, 78, 85, 0], [9]⟩ =
    [4, 0, 0, 0, 1, 0, 0, 0, 3, 0, 0, 0, 71, 78, 85, 0, 9, 0, 0, 0] := by decide

/-- C20: `Note::name` is the name with all trailing zero bytes, and nothing else, removed. -/
theorem C20_trimmed_name (n : Note) :
    ∃ k, n.name = n.trimmedName ++ List.replicate k 0 ∧ n.trimmedName.getLast? ≠ some 0 := by
  have key : ∀ l : List UInt8, ∃ k, l = List.replicate k 0 ++ Note.trimmedName.go l ∧
      (Note.trimmedName.go l).head? ≠ some 0 := by
    intro l
    induction l with
    | nil => exact ⟨0, by simp [Note.trimmedName.go], by simp [Note.trimmedName.go]⟩
    | cons b l ih =>
      simp only [Note.trimmedName.go]
      by_cases hb : b = 0
      · rw [if_pos hb]
        obtain ⟨k, h1, h2⟩ := ih
        refine ⟨k + 1, ?_, h2⟩
        rw [List.replicate_succ, List.cons_append, ← h1, hb]
      · rw [if_neg hb]; exact ⟨0, by simp, by simp [hb]⟩
  obtain ⟨k, h1, h2⟩ := key n.name.reverse
  refine ⟨k, ?_, ?_⟩
  · have := congrArg List.reverse h1
    rw [List.reverse_reverse, List.reverse_append, List.reverse_replicate] at this
    exact this
  · unfold Note.trimmedName
    rw [List.getLast?_reverse]; exact h2

/-! ## GNU properties -/

/-- C45: iterating GNU properties terminates without panicking on any data; the properties returned are
exactly the consecutive ones described by their headers, the iteration ends normally exactly at the end
of the data and with an error exactly when a malformed property is met (including missing padding). -/
theorem C45_properties (en : Endianness) (align : Nat) (ha : align = 4 ∨ align = 8) (data : List UInt8) :
    ∃ ps e stop, Runs (nextProperty en align) data ps e ∧ e ≠ .panic ∧
      PropertiesFrom en align data 0 ps stop ∧ stop ≤ data.length ∧
      (e = .done ↔ stop = data.length) ∧
      (e = .err ↔ stop < data.length ∧ ¬ ∃ p next, PropertyAt en align data stop p next) := by
  suffices ∀ m pos, data.length - pos = m → pos ≤ data.length →
      ∃ ps e stop, Runs (nextProperty en align) (data.drop pos) ps e ∧ e ≠ .panic ∧
      PropertiesFrom en align data pos ps stop ∧ stop ≤ data.length ∧
      (e = .done ↔ stop = data.length) ∧
      (e = .err ↔ stop < data.length ∧ ¬ ∃ p next, PropertyAt en align data stop p next) by
    simpa using this _ 0 rfl (by omega)
  intro m
  induction m using Nat.strongRecOn with
  | _ m ih =>
  intro pos hm hle
  subst hm
  by_cases h0 : pos = data.length
  · refine ⟨[], .done, pos, .done (s' := []) ?_, by simp, .nil pos, hle, by simp [h0], by simp; omega⟩
    rw [List.drop_of_length_le (by omega)]; exact fuseNext_nil
  have hne : data.drop pos ≠ [] := by simp; omega
  match hp : parseProperty en align (data.drop pos) with
  | (.ok n, d') =>
    obtain ⟨next, hn, rfl⟩ := (parseProperty_drop_iff en align ha data pos (by omega) n d').1 hp
    have hlt : pos < next := by
      have h1 := le_roundUp (8 + n.data.length) align (by omega)
      have := hn.next_eq
      omega
    obtain ⟨ns, e, stop, k1, k2, k3, k4, k5⟩ := ih (data.length - next) (by have := hn.next_in; omega) next rfl hn.next_in
    exact ⟨n :: ns, e, stop, .item (fuseNext_item hne hp) k1, k2, .cons hn k3, k4, k5⟩
  | (.err, d') =>
    refine ⟨[], .err, pos, .err (s' := []) (by simp [nextProperty, fuseNext, hne, hp]), by simp, .nil pos, hle, by simp; omega, ?_⟩
    simp only [true_iff]
    refine ⟨by omega, ?_⟩
    rintro ⟨n, next, hn⟩
    have := (parseProperty_drop_iff en align ha data pos (by omega) n _).2 ⟨next, hn, rfl⟩
    rw [hp] at this; cases this
  | (.panic, d') =>
    exfalso
    obtain ⟨d, hd⟩ := parseProperty_eq en align ha (data.drop pos)
    rw [hp] at hd
    split at hd <;> cases hd

/-- C45: properties laid out by the GNU ABI are read back exactly. -/
theorem C45_round_trip (en : Endianness) (align : Nat) (ha : align = 4 ∨ align = 8) (ps : List GnuProperty)
    (hps : ∀ p ∈ ps, p.typ < 2 ^ 32 ∧ p.data.length < 2 ^ 32) :
    Runs (nextProperty en align) (ps.flatMap (propertyBytes en align)) ps .done := by
  have hal0 : 0 < align := by omega
  have hlen : ∀ p : GnuProperty, (propertyBytes en align p).length = roundUp (8 + p.data.length) align := by
    intro p
    rw [propertyBytes, length_padTo _ hal0, List.length_append, length_encode]; simp
  have := fuse_round_trip (parse := parseProperty en align) (propertyBytes en align) id ps
    (fun p _ h => by
      have h1 := congrArg List.length h
      rw [hlen] at h1
      have := le_roundUp (8 + p.data.length) align hal0
      simp at h1; omega)
    (fun p hp tl => by
      obtain ⟨h1, h2⟩ := hps p hp
      obtain ⟨d, he⟩ := parseProperty_eq en align ha (propertyBytes en align p ++ tl)
      have hassoc : propertyBytes en align p ++ tl = encode en [(4, p.typ), (4, p.data.length)] ++ (p.data ++
          (List.replicate (roundUp (encode en [(4, p.typ), (4, p.data.length)] ++ p.data).length align -
            (encode en [(4, p.typ), (4, p.data.length)] ++ p.data).length) 0 ++ tl)) := by
        simp [propertyBytes, padTo]
      have f0 : field en (propertyBytes en align p ++ tl) 0 4 = p.typ := by
        rw [hassoc]; exact field_encode_zero en 4 _ _ _ (by omega)
      have f4 : field en (propertyBytes en align p ++ tl) 4 4 = p.data.length := by
        rw [hassoc, field_encode_succ _ _ _ _ _ _ _ (by omega)]; exact field_encode_zero en 4 _ _ _ (by omega)
      have s : slice (propertyBytes en align p ++ tl) 8 p.data.length = p.data := by
        have h8 : (encode en [(4, p.typ), (4, p.data.length)]).length = 8 := by simp
        rw [hassoc]; unfold slice
        rw [← h8, List.drop_left, List.take_left]
      rw [he, f0, f4, s, if_pos (by rw [List.length_append, hlen]; omega), ← hlen p, List.drop_left]
      rfl)
  rw [List.map_id] at this; exact this

example : propertyBytes .little 8 ⟨0xc0000002, [3, 0, 0, 0]⟩ =
    [2, 0, 0, 0xc0, 4, 0, 0, 0, 3, 0, 0, 0, 0, 0, 0, 0] := by decide

/-- C45: the property iterator is created exactly for GNU property notes, with the class's alignment. -/
theorem C45_gating (n : Note) (is64 : Bool) :
    n.gnuProperties is64 = if n.trimmedName = "GNU".toUTF8.toList ∧ n.typ = 5
      then some (if is64 then 8 else 4, n.desc) else none := by
  have : "GNU".toUTF8.toList = [0x47, 0x4e, 0x55] := by decide +kernel
  rw [this]
  unfold Note.gnuProperties
  by_cases h1 : n.trimmedName = [0x47, 0x4e, 0x55] <;> by_cases h2 : n.typ = 5 <;> simp [h1, h2]

end Obj.Props
