import Verif.Proof.Buffer

/-! # C05–C07, C11, C12: slices, byte cursors, output buffers, alignment -/

namespace Obj.Props
open Obj Obj.Spec

/-- `r` is the part of `data` that starts at `offset` and has `size` bytes. -/
def IsRange (data : List UInt8) (offset size : Nat) (r : List UInt8) : Prop :=
  ∃ pre post, data = pre ++ r ++ post ∧ pre.length = offset ∧ r.length = size

theorem isRange_iff {data : List UInt8} {o s : Nat} {r : List UInt8} :
    IsRange data o s r ↔ o + s ≤ data.length ∧ r = (data.drop o).take s := by
  constructor
  · rintro ⟨pre, post, rfl, rfl, rfl⟩
    simp
  · rintro ⟨h, rfl⟩
    refine ⟨data.take o, (data.drop o).drop s, ?_, by simp; omega, by simp; omega⟩
    rw [List.append_assoc, List.take_append_drop, List.take_append_drop]

/-- C05: an in-memory read succeeds exactly when the requested range lies in the data (or is empty),
and returns exactly that range; it never panics. -/
theorem C05_slice_read_exact (data : List UInt8) (offset size : Nat) (r : List UInt8) :
    (ReadRef.readBytesAt data offset size = .ok r ↔
      (size = 0 ∧ r = []) ∨ (0 < size ∧ IsRange data offset size r)) ∧
    ReadRef.readBytesAt data offset size ≠ .panic := by
  rw [isRange_iff]
  unfold ReadRef.readBytesAt
  constructor
  · split
    · rename_i h; subst h; simp [eq_comm]
    · split
      · simp; omega
      · split
        · simp_all; omega
        · rename_i h1 h2 h3
          simp at h3 ⊢
          constructor
          · rintro rfl; right; refine ⟨by omega, by omega, rfl⟩
          · rintro (⟨h, _⟩ | ⟨_, _, rfl⟩)
            · omega
            · rfl
  · split <;> (try split) <;> (try split) <;> simp

/-- C05: the cursor form returns the same bytes; it advances the cursor by exactly `size` on success
and leaves it unchanged on failure. -/
theorem C05_cursor_read (data : List UInt8) (offset size : Nat) (hlen : data.length < 2 ^ 64)
    (ho : offset < 2 ^ 64) :
    (ReadRef.readBytes data offset size).1 = ReadRef.readBytesAt data offset size ∧
    (ReadRef.readBytes data offset size).2 =
      (if ReadRef.readBytesAt data offset size = .err then offset else offset + size) := by
  have hex := fun r => C05_slice_read_exact data offset size r
  unfold ReadRef.readBytes
  match h : ReadRef.readBytesAt data offset size with
  | .ok r =>
    simp
    have h' := ((hex r).1.1 h)
    rw [isRange_iff] at h'
    rcases h' with ⟨rfl, _⟩ | ⟨_, h1, _⟩ <;> omega
  | .err => simp
  | .panic => exact absurd h (hex []).2

/-- C05: reading `count` records of `size` bytes succeeds exactly when the whole range lies in the data
(or is empty), and the records, laid end to end, are that range. -/
theorem C05_slice_of_records (data : List UInt8) (offset size count : Nat)
    (hlen : data.length < 2 ^ 64) (cs : List (List UInt8)) :
    (ReadRef.readSlice data offset size count).1 = .ok cs ↔
      cs.length = count ∧ (∀ c ∈ cs, c.length = size) ∧
      (count * size = 0 ∨ IsRange data offset (count * size) cs.flatten) := by
  have chunksOf : ∀ (cs : List (List UInt8)) (rest : List UInt8), (∀ c ∈ cs, c.length = size) →
      Bytes.chunks size cs.length (cs.flatten ++ rest) = cs := by
    intro cs
    induction cs with
    | nil => intro rest _; rfl
    | cons c cs ih =>
      intro rest h
      have hc : c.length = size := h c (by simp)
      simp only [List.length_cons, Bytes.chunks, List.flatten_cons, List.append_assoc]
      subst hc
      rw [List.take_left', List.drop_left', ih rest (fun c hc => h c (by simp [hc]))] <;> rfl
  unfold ReadRef.readSlice
  by_cases hov : U64 ≤ count * size
  · rw [if_pos hov]
    simp only [reduceCtorEq, isRange_iff, false_iff]
    rintro ⟨_, _, h | ⟨h, _⟩⟩ <;> omega
  · rw [if_neg hov]
    have hex := fun r => C05_slice_read_exact data offset (count * size) r
    unfold ReadRef.readBytes
    match h : ReadRef.readBytesAt data offset (count * size) with
    | .ok r =>
      have h' := (hex r).1.1 h
      have hr : r.length = count * size := by
        rcases h' with ⟨h0, rfl⟩ | ⟨_, _, _, _, _, h⟩
        · simp [h0]
        · exact h
      obtain ⟨f1, f2, f3⟩ := flatten_chunks size count r (by omega)
      rw [← hr, List.take_length] at f1
      simp only [Res.ok.injEq]
      constructor
      · rintro rfl
        refine ⟨f3, f2, ?_⟩
        rw [f1]
        rcases h' with ⟨h0, _⟩ | ⟨_, h'⟩
        · exact Or.inl h0
        · exact Or.inr h'
      · rintro ⟨rfl, h2, h3⟩
        have : r = cs.flatten := by
          rcases h3 with h0 | h3
          · have h1 : r = [] := by apply List.eq_nil_of_length_eq_zero; omega
            have h2' : cs.flatten = [] := by
              apply List.eq_nil_of_length_eq_zero
              have : cs.flatten.length = cs.length * size := by
                clear h0 h1 h hr h' f1 f2 f3 hex hov
                induction cs with
                | nil => simp
                | cons c cs ih =>
                  simp only [List.flatten_cons, List.length_append, List.length_cons, Nat.succ_mul]
                  rw [ih (fun c hc => h2 c (by simp [hc])), h2 c (by simp)]; omega
              omega
            rw [h1, h2']
          · rw [isRange_iff] at h3
            rcases h' with ⟨h0, rfl⟩ | ⟨_, h'⟩
            · rw [h3.2, h0]; simp
            · rw [isRange_iff] at h'; rw [h'.2, h3.2]
        subst this
        have := chunksOf cs [] h2
        simpa using this
    | .err =>
      simp only [reduceCtorEq, false_iff]
      rintro ⟨h1, h2, h3⟩
      rcases h3 with h0 | h3
      · have := (hex []).1.2 (Or.inl ⟨h0, rfl⟩); rw [h] at this; simp at this
      · by_cases hz : count * size = 0
        · have := (hex []).1.2 (Or.inl ⟨hz, rfl⟩); rw [h] at this; simp at this
        · have := (hex _).1.2 (Or.inr ⟨by omega, h3⟩); rw [h] at this; simp at this
    | .panic => exact absurd h (hex []).2

example : ReadRef.readBytesAt [1, 2, 3, 4] 1 2 = .ok [2, 3] ∧ IsRange [1, 2, 3, 4] 1 2 [2, 3] ∧
    ReadRef.readBytesAt [1, 2, 3, 4] 3 2 = .err ∧
    (ReadRef.readSlice [1, 2, 3, 4, 5] 1 2 2).1 = .ok [[2, 3], [4, 5]] := by
  refine ⟨by decide, ⟨[1], [4], by decide⟩, by decide, by decide⟩

/-- `data_range` (address lookups inside loaded data): the result is exactly the bytes at
`rangeAddress - dataAddress`, present exactly when the whole address range lies in the data. -/
theorem C05_data_range (data : List UInt8) (dataAddress rangeAddress size : Nat) (r : List UInt8) :
    dataRange data dataAddress rangeAddress size = some r ↔
      dataAddress ≤ rangeAddress ∧ (rangeAddress - dataAddress) + size ≤ data.length ∧
        r = slice data (rangeAddress - dataAddress) size := by
  unfold dataRange slice
  split
  · simp; omega
  · simp only [List.length_drop]
    split
    · simp; omega
    · split
      · simp; omega
      · simp only [Option.some.injEq]
        constructor
        · intro h; exact ⟨by omega, by omega, h.symm⟩
        · intro h; exact h.2.2.symm

example : dataRange [1, 2, 3, 4] 0x1000 0x1001 3 = some [2, 3, 4] := by decide

/-- C06: a delimited read succeeds exactly when the range lies in the data and contains the delimiter;
the result is what precedes the first delimiter. -/
theorem C06_until_exact (data : List UInt8) (start stop : Nat) (d : UInt8) (s : List UInt8) :
    (ReadRef.readBytesAtUntil data start stop d = .ok s ↔
      start ≤ stop ∧ ∃ tl, d ∉ s ∧ IsRange data start (stop - start) (s ++ d :: tl)) ∧
    ReadRef.readBytesAtUntil data start stop d ≠ .panic := by
  unfold ReadRef.readBytesAtUntil
  constructor
  · by_cases h : start ≤ stop ∧ stop ≤ data.length
    · rw [if_pos h]
      simp only []
      match hm : memchr d ((data.drop start).take (stop - start)) with
      | some n =>
        obtain ⟨pre, suf, hp, hn, rfl⟩ := (memchr_some_iff ..).1 hm
        simp only [Res.ok.injEq]
        rw [hp, List.take_left]
        constructor
        · rintro rfl
          refine ⟨h.1, suf, hn, ?_⟩
          rw [isRange_iff]; exact ⟨by omega, hp.symm⟩
        · rintro ⟨_, tl, hs, hr⟩
          rw [isRange_iff] at hr
          rw [hp] at hr
          have h1 := memchr_append (suf := tl) hs
          rw [hr.2, memchr_append hn] at h1
          simp only [Option.some.injEq] at h1
          have := congrArg (List.take pre.length) hr.2
          rw [List.take_left, h1, List.take_left] at this
          exact this.symm
      | none =>
        have hnm := (memchr_none_iff ..).1 hm
        simp only [reduceCtorEq, false_iff]
        rintro ⟨_, tl, hs, hr⟩
        rw [isRange_iff] at hr
        apply hnm; rw [← hr.2]; simp
    · rw [if_neg h]
      simp only [reduceCtorEq, false_iff]
      rintro ⟨h1, tl, hs, hr⟩
      rw [isRange_iff] at hr
      omega
  · split
    · simp only []; split <;> simp
    · simp

/-- C06: a string table lookup returns the string that starts at `start + offset`, is free of NUL and is
followed by a NUL before the end of the table; it fails in every other case and never panics. -/
theorem C06_string_table_get (data : List UInt8) (start stop offset : Nat) (s : List UInt8)
    (hlen : data.length < 2 ^ 64) :
    (stringTableGet (some data) start stop offset = .ok s ↔
      ∃ pre mid post, data = pre ++ s ++ 0 :: mid ++ post ∧ (0 : UInt8) ∉ s ∧
        pre.length = start + offset ∧ (pre ++ s ++ 0 :: mid).length = stop) ∧
    stringTableGet (some data) start stop offset ≠ .panic := by
  unfold stringTableGet
  obtain ⟨h1, h2⟩ := C06_until_exact data (start + offset) stop 0 s
  constructor
  · by_cases hov : U64 ≤ start + offset
    · simp only [if_pos hov, reduceCtorEq, false_iff]
      rintro ⟨pre, mid, post, rfl, _, hp, _⟩
      simp at hlen; omega
    · simp only [if_neg hov, h1]
      constructor
      · rintro ⟨hle, tl, hs, pre, post, rfl, hp, hr⟩
        refine ⟨pre, tl, post, by simp, hs, hp, ?_⟩
        simp at hr ⊢; omega
      · rintro ⟨pre, mid, post, rfl, hs, hp, he⟩
        simp at he
        refine ⟨by omega, mid, hs, pre, post, by simp, hp, by simp; omega⟩
  · simp only []; split
    · simp
    · exact h2

example : stringTableGet (some [9, 104, 105, 0, 7]) 1 5 0 = .ok [104, 105] ∧
    stringTableGet (some [9, 104, 105, 0, 7]) 1 3 0 = .err := by decide

/-! ## C07 -/

/-- The cursor operations of `Bytes`. -/
inductive CurOp where
  | skip (n : Nat)
  | readBytes (n : Nat)
  | readSlice (size count : Nat)
  | readString
  deriving DecidableEq

/-- Perform a cursor operation; the bytes handed to the caller, concatenated. -/
def CurOp.run (c : List UInt8) : CurOp → Res (List UInt8) × List UInt8
  | .skip n => match Bytes.skip c n with
    | (.ok (), tl) => (.ok [], tl)
    | (.err, tl) => (.err, tl)
    | (.panic, tl) => (.panic, tl)
  | .readBytes n => Bytes.readBytes c n
  | .readSlice size count => match Bytes.readSlice c size count with
    | (.ok cs, tl) => (.ok cs.flatten, tl)
    | (.err, tl) => (.err, tl)
    | (.panic, tl) => (.panic, tl)
  | .readString => Bytes.readString c

/-- What each operation must consume from `c`, and return, for it to succeed. -/
def CurOp.Takes (consumed out : List UInt8) : CurOp → Prop
  | .skip n => consumed.length = n ∧ out = []
  | .readBytes n => consumed.length = n ∧ out = consumed
  | .readSlice size count => consumed.length = count * size ∧ out = consumed
  | .readString => (0 : UInt8) ∉ out ∧ consumed = out ++ [0]

/-- C07: a cursor operation succeeds exactly when the cursor starts with what the operation has to
consume, and then leaves exactly the rest; otherwise it fails and leaves an empty cursor. -/
theorem C07_cursor_op_exact (c : List UInt8) (hc : c.length < 2 ^ 64) (op : CurOp) :
    (∀ out rest, op.run c = (.ok out, rest) ↔ ∃ consumed, c = consumed ++ rest ∧ op.Takes consumed out) ∧
    ((op.run c).1 = .err → (op.run c).2 = []) ∧ (op.run c).1 ≠ .panic := by
  cases op with
  | skip n =>
    simp only [CurOp.run, Bytes.skip, CurOp.Takes]
    by_cases h : n ≤ c.length
    · rw [if_pos h]
      refine ⟨?_, by simp, by simp⟩
      intro out rest
      simp only [Prod.mk.injEq, Res.ok.injEq]
      constructor
      · rintro ⟨rfl, rfl⟩; exact ⟨c.take n, by simp, by simp; omega, rfl⟩
      · rintro ⟨x, rfl, rfl, rfl⟩; simp
    · rw [if_neg h]
      refine ⟨?_, by simp, by simp⟩
      intro out rest
      simp only [Prod.mk.injEq, reduceCtorEq, false_and, false_iff]
      rintro ⟨x, rfl, rfl, rfl⟩; simp at h
  | readBytes n =>
    simp only [CurOp.run, Bytes.readBytes, CurOp.Takes]
    by_cases h : n ≤ c.length
    · rw [if_pos h]
      refine ⟨?_, by simp, by simp⟩
      intro out rest
      simp only [Prod.mk.injEq, Res.ok.injEq]
      constructor
      · rintro ⟨rfl, rfl⟩; exact ⟨c.take n, by simp, by simp; omega, rfl⟩
      · rintro ⟨x, rfl, rfl, rfl⟩; simp
    · rw [if_neg h]
      refine ⟨?_, by simp, by simp⟩
      intro out rest
      simp only [Prod.mk.injEq, reduceCtorEq, false_and, false_iff]
      rintro ⟨x, rfl, rfl, rfl⟩; simp at h
  | readSlice size count =>
    simp only [CurOp.run, Bytes.readSlice, CurOp.Takes]
    by_cases h : count * size < U64 ∧ count * size ≤ c.length
    · rw [if_pos h]
      refine ⟨?_, by simp, by simp⟩
      intro out rest
      simp only [Prod.mk.injEq, Res.ok.injEq]
      rw [(flatten_chunks size count c h.2).1]
      constructor
      · rintro ⟨rfl, rfl⟩; exact ⟨c.take (count * size), by simp, by simp; omega, rfl⟩
      · rintro ⟨x, rfl, hx, rfl⟩; rw [← hx]; simp
    · rw [if_neg h]
      refine ⟨?_, by simp, by simp⟩
      intro out rest
      simp only [Prod.mk.injEq, reduceCtorEq, false_and, false_iff]
      rintro ⟨x, rfl, hx, rfl⟩
      simp at hc
      apply h; rw [← hx]; simp; omega
  | readString =>
    simp only [CurOp.run, CurOp.Takes]
    rcases readString_cases c with ⟨s, tl, rfl, hs, hr⟩ | ⟨hn, hr⟩
    · rw [hr]
      refine ⟨?_, by simp, by simp⟩
      intro out rest
      simp only [Prod.mk.injEq, Res.ok.injEq]
      constructor
      · rintro ⟨rfl, rfl⟩; exact ⟨s ++ [0], by simp, hs, rfl⟩
      · rintro ⟨x, hx, ho, rfl⟩
        have h1 := readString_append (tl := rest) ho
        rw [show out ++ 0 :: rest = s ++ 0 :: tl by simpa using hx.symm, hr] at h1
        simpa using h1
    · rw [hr]
      refine ⟨?_, by simp, by simp⟩
      intro out rest
      simp only [Prod.mk.injEq, reduceCtorEq, false_and, false_iff]
      rintro ⟨x, rfl, _, rfl⟩
      apply hn; simp

/-- Run a sequence of cursor operations, collecting the results. -/
def CurOp.runs (c : List UInt8) : List CurOp → List (Res (List UInt8)) × List UInt8
  | [] => ([], c)
  | op :: ops =>
    let r := op.run c
    let rs := CurOp.runs r.2 ops
    (r.1 :: rs.1, rs.2)

/-- C07: after any sequence of operations the cursor is a suffix of the original data; and once an
operation has failed, the cursor is empty and every later operation that needs at least one byte
fails. -/
theorem C07_cursor_sequence (ops : List CurOp) : ∀ (c : List UInt8), c.length < 2 ^ 64 →
    (CurOp.runs c ops).2 <:+ c ∧ .panic ∉ (CurOp.runs c ops).1 ∧
    (.err ∈ (CurOp.runs c ops).1 → (CurOp.runs c ops).2 = []) := by
  induction ops with
  | nil => intro c _; simp [CurOp.runs]
  | cons op ops ih =>
    intro c hc
    obtain ⟨h1, h2, h3⟩ := C07_cursor_op_exact c hc op
    have hsuf : (op.run c).2 <:+ c := by
      match hr : op.run c with
      | (.ok out, rest) =>
        obtain ⟨x, rfl, _⟩ := (h1 out rest).1 hr
        exact List.suffix_append x rest
      | (.err, rest) =>
        rw [hr] at h2; simp at h2; subst h2; simp
      | (.panic, rest) => rw [hr] at h3; simp at h3
    obtain ⟨i1, i2, i3⟩ := ih (op.run c).2 (Nat.lt_of_le_of_lt hsuf.length_le hc)
    simp only [CurOp.runs]
    refine ⟨i1.trans hsuf, ?_, ?_⟩
    · simp [Ne.symm h3, i2]
    · simp only [List.mem_cons]
      rintro (h | h)
      · have := h2 h.symm
        rw [this] at i1 ⊢
        exact List.suffix_nil.1 i1
      · exact i3 h

example : CurOp.runs [104, 105, 0, 1, 2, 3] [.readString, .readSlice 1 2, .readBytes 2, .readBytes 1]
    = ([.ok [104, 105], .ok [1, 2], .err, .err], []) := by decide

/-! ## C11 -/

/-- C11: any legitimate sequence of operations on a counting buffer over a `Vec` produces exactly the
specified bytes, and the count is their number. -/
theorem C11_vec_buffer (ops : List WOp) (h : okOps (2 ^ 64) [] ops) :
    Counting.ops vecBuf { buffer := [], count := 0 } ops
      = .ok { buffer := outOps [] ops, count := (outOps [] ops).length } := by
  obtain ⟨b', h1, h2⟩ := counting_ops_sim vecBuf (fun b out => b = out) (2 ^ 64) (by simp)
    (by rintro b out val rfl _; exact ⟨_, rfl, rfl⟩) (by rintro b out n rfl _; exact ⟨_, rfl, rfl⟩)
    ops [] [] rfl h
  subst h2
  exact h1

/-- C11: the same on a caller supplied slice that is large enough: the slice starts with the specified
bytes and the rest of it is untouched. -/
theorem C11_slice_buffer (mem : List UInt8) (ops : List WOp)
    (h : okOps (min (mem.length + 1) (2 ^ 64)) [] ops) :
    Counting.ops sliceBuf { buffer := ([], mem), count := 0 } ops
      = .ok { buffer := (outOps [] ops, mem.drop (outOps [] ops).length),
              count := (outOps [] ops).length } := by
  obtain ⟨b', h1, h2⟩ := counting_ops_sim sliceBuf
    (fun b out => b = (out, mem.drop out.length)) (min (mem.length + 1) (2 ^ 64)) (by simp; omega)
    (by
      rintro b out val rfl hl
      simp only [List.length_append] at hl
      refine ⟨_, ?_, rfl⟩
      simp only [sliceBuf, List.length_drop]
      rw [if_neg (by omega)]
      simp)
    (by
      rintro b out n rfl hl
      simp only [List.length_append, List.length_replicate] at hl
      refine ⟨_, ?_, rfl⟩
      simp only [sliceBuf, List.length_drop]
      rw [if_neg (by omega)]
      simp)
    ops ([], mem) [] (by simp) h
  subst h2
  exact h1

/-- C11: writing past the end of the caller supplied slice panics instead of corrupting anything. -/
theorem C11_slice_overflow (written mem val : List UInt8) (h : mem.length < val.length) :
    sliceBuf.writeBytes (written, mem) val = .panic := by
  simp [sliceBuf, h]

/-- The underlying stream of a streaming buffer: it records every `write_all` call made on it, and
`succeeds calls` says whether the last of `calls` succeeds (it may depend on the whole history). -/
def loggedWrite (succeeds : List (List UInt8) → Bool) (log : List (List UInt8)) (val : List UInt8) :
    Bool × List (List UInt8) :=
  (succeeds (log ++ [val]), log ++ [val])

/-- C11: on a streaming buffer, for any failure behaviour of the stream: the operations never fail, the
count is the specified length; every call but possibly the last one succeeded, so nothing is sent after
the first failure; the error flag says whether the last call failed; what was sent is a prefix of the
specified bytes, and all of them if no error was recorded. -/
theorem C11_streaming_buffer (succeeds : List (List UInt8) → Bool) (ops : List WOp)
    (h : okOps (2 ^ 64) [] ops) :
    ∃ log failed, Counting.ops (streamBuf (loggedWrite succeeds))
        { buffer := { writer := [], failed := false }, count := 0 } ops
      = .ok { buffer := { writer := log, failed := failed }, count := (outOps [] ops).length } ∧
    log.flatten <+: outOps [] ops ∧
    (failed = false → log.flatten = outOps [] ops) ∧
    (∀ n, 0 < n → n < log.length → succeeds (log.take n) = true) ∧
    (log ≠ [] → succeeds log = !failed) ∧ (failed = true → log ≠ []) := by
  let R : Streaming (List (List UInt8)) → List UInt8 → Prop := fun b out =>
    b.writer.flatten <+: out ∧ (b.failed = false → b.writer.flatten = out) ∧
    (∀ n, 0 < n → n < b.writer.length → succeeds (b.writer.take n) = true) ∧
    (b.writer ≠ [] → succeeds b.writer = !b.failed) ∧ (b.failed = true → b.writer ≠ [])
  have hB : ∀ b out val, R b out → ∃ b', (streamBuf (loggedWrite succeeds)).writeBytes b val = .ok b' ∧
      R b' (out ++ val) := by
    rintro ⟨log, failed⟩ out val ⟨h1, h2, h3, h4, h5⟩
    simp only at h1 h2 h3 h4 h5
    cases failed with
    | true =>
      refine ⟨⟨log, true⟩, by simp [streamBuf], ?_, by simp, h3, h4, h5⟩
      exact h1.trans (List.prefix_append out val)
    | false =>
      have h2 := h2 rfl
      refine ⟨⟨log ++ [val], !succeeds (log ++ [val])⟩, by simp [streamBuf, loggedWrite], ?_, ?_, ?_, ?_, ?_⟩
      · simp [h2]
      · simp [h2]
      · intro n hn hl
        simp at hl
        simp only
        rw [List.take_append_of_le_length (by omega)]
        by_cases hlt : n < log.length
        · exact h3 n hn hlt
        · have : n = log.length := by omega
          subst this
          rw [List.take_length, h4 (by intro h; simp [h] at hn)]; rfl
      · simp
      · simp
  obtain ⟨⟨log, failed⟩, h1, h2⟩ := counting_ops_sim (streamBuf (loggedWrite succeeds)) R (2 ^ 64) (by simp)
    (fun b out val hR _ => hB b out val hR)
    (fun b out n hR _ => defaultWriteZeros_sim _ R hB n b out hR)
    ops ⟨[], false⟩ [] (by simp [R]) h
  exact ⟨log, failed, h1, h2⟩

example : okOps (2 ^ 64) [] [.bytes [1, 2, 3], .align 4, .zeros 2, .resize 8] ∧
    outOps [] [.bytes [1, 2, 3], .align 4, .zeros 2, .resize 8] = [1, 2, 3, 0, 0, 0, 0, 0] := by
  refine ⟨⟨trivial, by decide, ⟨2, by decide, rfl⟩, by decide, trivial, by decide, ?_, by decide, trivial⟩, by decide⟩
  simp [okOp, outOp, roundUp]

/-! ## C12 -/

/-- C12: for every power of two `size` and every offset for which the rounding does not overflow, the
`u64` align function returns the least multiple of `size` that is at least `offset`. -/
theorem C12_align_u64 (offset k : Nat) (hk : k < 64) (h : offset + (2 ^ k - 1) < 2 ^ 64) :
    ∃ r, align64 offset (2 ^ k) = .ok r ∧ 2 ^ k ∣ r ∧ offset ≤ r ∧
      ∀ m, 2 ^ k ∣ m → offset ≤ m → r ≤ m := by
  have hp := Nat.two_pow_pos k
  obtain ⟨h1, h2, h3⟩ := roundUp_spec offset (2 ^ k) hp
  refine ⟨_, align64_eq hk h, Nat.dvd_of_mod_eq_zero h1, h2, ?_⟩
  rintro m ⟨c, rfl⟩ hm
  apply Nat.le_of_not_lt
  intro hlt
  rw [Nat.mul_comm] at hlt
  have := Nat.lt_of_mul_lt_mul_right hlt
  have h4 := Nat.mul_le_mul_right (2 ^ k) this
  rw [Nat.succ_mul] at h4
  rw [Nat.mul_comm] at hm
  omega

/-- C12: the `u32` align function. -/
theorem C12_align_u32 (offset k : Nat) (hk : k < 32) (h : offset + (2 ^ k - 1) < 2 ^ 32) :
    ∃ r, align32 offset (2 ^ k) = .ok r ∧ 2 ^ k ∣ r ∧ offset ≤ r ∧
      ∀ m, 2 ^ k ∣ m → offset ≤ m → r ≤ m := by
  have hp := Nat.two_pow_pos k
  obtain ⟨h1, h2, h3⟩ := roundUp_spec offset (2 ^ k) hp
  refine ⟨_, align32_eq hk h, Nat.dvd_of_mod_eq_zero h1, h2, ?_⟩
  rintro m ⟨c, rfl⟩ hm
  apply Nat.le_of_not_lt
  intro hlt
  rw [Nat.mul_comm] at hlt
  have := Nat.lt_of_mul_lt_mul_right hlt
  have h4 := Nat.mul_le_mul_right (2 ^ k) this
  rw [Nat.succ_mul] at h4
  rw [Nat.mul_comm] at hm
  omega

/-- C12: the reader's align function on `usize`. -/
theorem C12_align_usize (offset k : Nat) (hk : k < 64) (h : offset + (2 ^ k - 1) < 2 ^ 64) :
    ∃ r, alignUsize offset (2 ^ k) = .ok r ∧ 2 ^ k ∣ r ∧ offset ≤ r ∧
      ∀ m, 2 ^ k ∣ m → offset ≤ m → r ≤ m := by
  have := C12_align_u64 offset k hk h
  exact this

example : align64 13 (2 ^ 3) = .ok 16 ∧ align32 16 (2 ^ 3) = .ok 16 := by decide

end Obj.Props
