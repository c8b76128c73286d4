import Verif.Proof.MachoW4
import Verif.Props.ElfTables
import Verif.Props.MachOIter

/-! Reading the structures of a Mach-O file. -/

namespace Obj.MachoW
open Obj Obj.Reserve Obj.Parts Obj.Spec Obj.Spec.MachoO Obj.MachoR
open Obj.ElfW (length_of_getElem?)

/-! ## Structures -/

theorem pow_w4 (c : Cfg) {n : Nat} (h : n < U32) : n < 256 ^ c.w := by
  unfold Elf.Cfg.w
  cases c.is64
  · exact h
  · have : U32 < 256 ^ 8 := by decide
    show n < 256 ^ 8
    omega

theorem mhdr_decode (c : Cfg) (h : Mhdr) (h1 : h.cputype < U32) (h2 : h.cpusubtype < U32) (h3 : h.filetype < U32) (h4 : h.ncmds < U32)
    (h5 : h.sizeofcmds < U32) (h6 : h.flags < U32) : Mhdr.decode c (h.encode c) = h ∧ (h.encode c).take 4 = magic c := by
  unfold Mhdr.decode Mhdr.encode
  have hm := length_magic c
  have e1 : ∀ l : List UInt8, (magic c ++ l).drop 4 = l := fun l => by rw [← hm, List.drop_left]
  have e2 : ∀ l : List UInt8, (magic c ++ l).take 4 = magic c := fun l => by rw [← hm, List.take_left]
  rw [e1, e2]
  have hd := Obj.decode_encode c.en [(4, h.cputype), (4, h.cpusubtype), (4, h.filetype), (4, h.ncmds), (4, h.sizeofcmds), (4, h.flags)]
    (if c.is64 then [0, 0, 0, 0] else []) (by
      simp only [Obj.Fits, List.mem_cons, List.not_mem_nil, or_false, forall_eq_or_imp, forall_eq]
      exact ⟨h1, h2, h3, h4, h5, h6⟩)
  simp only [List.map_cons, List.map_nil] at hd
  rw [hd]
  exact ⟨rfl, rfl⟩

theorem seg_decode (c : Cfg) (s : Seg) (hn : s.segname.length = 16) (h1 : s.vmaddr < 256 ^ c.w) (h2 : s.vmsize < 256 ^ c.w)
    (h3 : s.fileoff < 256 ^ c.w) (h4 : s.filesize < 256 ^ c.w) (h5 : s.maxprot < U32) (h6 : s.initprot < U32) (h7 : s.nsects < U32)
    (h8 : s.flags < U32) (h9 : segSize c + s.nsects * sectSize c < U32) (tl : List UInt8) :
    Seg.decode c (s.encode c) = s ∧ field c.en (s.encode c ++ tl) 0 4 = segCmd c ∧
    field c.en (s.encode c ++ tl) 4 4 = segSize c + s.nsects * sectSize c := by
  unfold Seg.decode Seg.encode
  generalize hA : Obj.encode c.en [(4, segCmd c), (4, segSize c + s.nsects * sectSize c)] = A
  have hAl : A.length = 8 := by rw [← hA]; simp
  have e1 : ∀ l : List UInt8, (A ++ (s.segname ++ l)).drop 24 = l := by
    intro l
    rw [show (24 : Nat) = A.length + 16 by omega, ← List.drop_drop, List.drop_left, ← hn, List.drop_left]
  have e2 : ∀ l : List UInt8, ((A ++ (s.segname ++ l)).drop 8).take 16 = s.segname := by
    intro l
    rw [← hAl, List.drop_left, ← hn, List.take_left]
  rw [e1, e2]
  have hd := Obj.decode_encode c.en [(c.w, s.vmaddr), (c.w, s.vmsize), (c.w, s.fileoff), (c.w, s.filesize), (4, s.maxprot),
    (4, s.initprot), (4, s.nsects), (4, s.flags)] [] (by
      simp only [Obj.Fits, List.mem_cons, List.not_mem_nil, or_false, forall_eq_or_imp, forall_eq]
      exact ⟨h1, h2, h3, h4, h5, h6, h7, h8⟩)
  simp only [List.map_cons, List.map_nil, List.append_nil] at hd
  rw [hd]
  refine ⟨rfl, ?_, ?_⟩
  · rw [List.append_assoc, ← hA]
    refine field_encode_zero _ _ _ _ _ ?_
    unfold segCmd; cases c.is64 <;> decide
  · rw [List.append_assoc, ← hA, field_encode_succ _ _ _ _ _ _ _ (by decide)]
    exact field_encode_zero _ _ _ _ _ h9

theorem sect_decode (c : Cfg) (s : Sect) (hn : s.sectname.length = 16) (hn2 : s.segname.length = 16) (h1 : s.addr < 256 ^ c.w)
    (h2 : s.size < 256 ^ c.w) (h3 : s.offset < U32) (h4 : s.align < U32) (h5 : s.reloff < U32) (h6 : s.nreloc < U32) (h7 : s.flags < U32)
    (h8 : s.reserved1 < U32) (h9 : s.reserved2 < U32) (h10 : s.reserved3 = 0) : Sect.decode c (s.encode c) = s := by
  unfold Sect.decode Sect.encode
  have e1 : ∀ l : List UInt8, (s.sectname ++ (s.segname ++ l)).drop 32 = l := by
    intro l
    rw [show (32 : Nat) = s.sectname.length + 16 by omega, ← List.drop_drop, List.drop_left, ← hn2, List.drop_left]
  have e2 : ∀ l : List UInt8, (s.sectname ++ l).take 16 = s.sectname := fun l => by rw [← hn, List.take_left]
  have e3 : ∀ l : List UInt8, ((s.sectname ++ (s.segname ++ l)).drop 16).take 16 = s.segname := by
    intro l
    rw [show (16 : Nat) = s.sectname.length by omega, List.drop_left, hn, ← hn2, List.take_left]
  rw [e1, e2, e3]
  unfold Sect.fields
  obtain ⟨a, b, d1, d2, d3, d4, d5, d6, d7, d8, d9, d10⟩ := s
  simp only at *
  subst h10
  cases hc : c.is64
  · have hd := Obj.decode_encode c.en [(c.w, d1), (c.w, d2), (4, d3), (4, d4), (4, d5), (4, d6), (4, d7), (4, d8), (4, d9)] [] (by
        simp only [Obj.Fits, List.mem_cons, List.not_mem_nil, or_false, forall_eq_or_imp, forall_eq]
        exact ⟨h1, h2, h3, h4, h5, h6, h7, h8, h9⟩)
    simp only [List.map_cons, List.map_nil, List.append_nil] at hd
    simp only [Bool.false_eq_true, if_false, List.append_nil]
    rw [hd]; rfl
  · have hd := Obj.decode_encode c.en [(c.w, d1), (c.w, d2), (4, d3), (4, d4), (4, d5), (4, d6), (4, d7), (4, d8), (4, d9), (4, 0)] [] (by
        simp only [Obj.Fits, List.mem_cons, List.not_mem_nil, or_false, forall_eq_or_imp, forall_eq]
        exact ⟨h1, h2, h3, h4, h5, h6, h7, h8, h9, by decide⟩)
    simp only [List.map_cons, List.map_nil, List.append_nil] at hd
    simp only [if_true, List.cons_append, List.nil_append]
    rw [hd]; rfl

theorem wr_mod (e : Endianness) (w n : Nat) : wr e w (n % 256 ^ w) = wr e w n := by
  have h := wr_rd e (wr e w n)
  rw [length_wr, rd_wr_mod] at h
  exact h

theorem nlist_decode (c : Cfg) (s : Nlist) (h1 : s.strx < U32) (h2 : s.typ < 256) (h3 : s.sect < 256) (h4 : s.desc < 65536) :
    Nlist.decode c (s.encode c) = { s with value := s.value % 256 ^ c.w } := by
  unfold Nlist.decode Nlist.encode
  have he : Obj.encode c.en [(4, s.strx), (1, s.typ), (1, s.sect), (2, s.desc), (c.w, s.value)] =
      Obj.encode c.en [(4, s.strx), (1, s.typ), (1, s.sect), (2, s.desc), (c.w, s.value % 256 ^ c.w)] := by
    simp only [Obj.encode, wr_mod]
  have hd := Obj.decode_encode c.en [(4, s.strx), (1, s.typ), (1, s.sect), (2, s.desc), (c.w, s.value % 256 ^ c.w)] [] (by
    simp only [Obj.Fits, List.mem_cons, List.not_mem_nil, or_false, forall_eq_or_imp, forall_eq]
    exact ⟨h1, h2, h3, h4, Nat.mod_lt _ (Nat.pow_pos (by decide))⟩)
  simp only [List.map_cons, List.map_nil, List.append_nil] at hd
  rw [he, hd]; rfl

theorem symtab_decode (c : Cfg) (s : SymtabCmd) (h1 : s.symoff < U32) (h2 : s.nsyms < U32) (h3 : s.stroff < U32) (h4 : s.strsize < U32)
    (tl : List UInt8) : SymtabCmd.decode c (s.encode c) = s ∧ field c.en (s.encode c ++ tl) 0 4 = 2 ∧ field c.en (s.encode c ++ tl) 4 4 = 24 := by
  unfold SymtabCmd.decode SymtabCmd.encode
  have hd := Obj.decode_encode c.en [(4, 2), (4, 24), (4, s.symoff), (4, s.nsyms), (4, s.stroff), (4, s.strsize)] [] (by
    simp only [Obj.Fits, List.mem_cons, List.not_mem_nil, or_false, forall_eq_or_imp, forall_eq]
    exact ⟨by decide, by decide, h1, h2, h3, h4⟩)
  simp only [List.map_cons, List.map_nil, List.append_nil] at hd
  rw [hd]
  refine ⟨rfl, field_encode_zero _ _ _ _ _ (by decide), ?_⟩
  rw [field_encode_succ _ _ _ _ _ _ _ (by decide)]
  exact field_encode_zero _ _ _ _ _ (by decide)

theorem version_decode (c : Cfg) (s : BuildVersion) (h1 : s.platform < U32) (h2 : s.minos < U32) (h3 : s.sdk < U32) (h4 : s.ntools = 0)
    (tl : List UInt8) : BuildVersion.decode c (s.encode c) = s ∧ field c.en (s.encode c ++ tl) 0 4 = 0x32 ∧
    field c.en (s.encode c ++ tl) 4 4 = 24 := by
  obtain ⟨a, b, d, n⟩ := s
  simp only at *
  subst h4
  unfold BuildVersion.decode BuildVersion.encode
  have hd := Obj.decode_encode c.en [(4, 0x32), (4, 24 + 0 * 8), (4, a), (4, b), (4, d), (4, 0)] [] (by
    simp only [Obj.Fits, List.mem_cons, List.not_mem_nil, or_false, forall_eq_or_imp, forall_eq]
    exact ⟨by decide, by decide, h1, h2, h3, by decide⟩)
  simp only [List.map_cons, List.map_nil, List.append_nil] at hd
  simp only
  rw [hd]
  refine ⟨rfl, field_encode_zero _ _ _ _ _ (by decide), ?_⟩
  rw [field_encode_succ _ _ _ _ _ _ _ (by decide)]
  exact field_encode_zero _ _ _ _ _ (by decide)

theorem dysymtab_decode (c : Cfg) (s : DysymtabCmd) (h1 : s.ilocalsym < U32) (h2 : s.nlocalsym < U32) (h3 : s.iextdefsym < U32)
    (h4 : s.nextdefsym < U32) (h5 : s.iundefsym < U32) (h6 : s.nundefsym < U32) (h7 : s.rest = List.replicate 12 0)
    (tl : List UInt8) : DysymtabCmd.decode c (s.encode c) = s ∧ field c.en (s.encode c ++ tl) 0 4 = 0xb ∧
    field c.en (s.encode c ++ tl) 4 4 = 80 := by
  obtain ⟨a1, a2, a3, a4, a5, a6, r⟩ := s
  simp only at *
  subst h7
  unfold DysymtabCmd.decode DysymtabCmd.encode
  have hd := Obj.decode_encode c.en [(4, 0xb), (4, 80), (4, a1), (4, a2), (4, a3), (4, a4), (4, a5), (4, a6), (4, 0), (4, 0), (4, 0), (4, 0),
    (4, 0), (4, 0), (4, 0), (4, 0), (4, 0), (4, 0), (4, 0), (4, 0)] [] (by
    simp only [Obj.Fits, List.mem_cons, List.not_mem_nil, or_false, forall_eq_or_imp, forall_eq]
    exact ⟨by decide, by decide, h1, h2, h3, h4, h5, h6, by decide⟩)
  simp only [List.map_cons, List.map_nil, List.append_nil] at hd
  show _ ∧ field c.en (Obj.encode c.en ((4, 0xb) :: (4, 80) :: _) ++ tl) 0 4 = _ ∧ field c.en (Obj.encode c.en ((4, 0xb) :: (4, 80) :: _) ++ tl) 4 4 = _
  refine ⟨?_, field_encode_zero _ _ _ _ _ (by decide), ?_⟩
  · exact Eq.trans (congrArg (fun f : List Nat => DysymtabCmd.mk (f.getD 2 0) (f.getD 3 0) (f.getD 4 0) (f.getD 5 0) (f.getD 6 0) (f.getD 7 0) (f.drop 8)) hd) rfl
  · rw [field_encode_succ _ _ _ _ _ _ _ (by decide)]
    exact field_encode_zero _ _ _ _ _ (by decide)

/-! ## Load commands -/

/-- One step of the iterator. -/
theorem next_cons (en : Endianness) (c tl : List UInt8) (n off : Nat) (h8 : 8 ≤ c.length) (hsz : field en c 4 4 = c.length)
    (ho : off + c.length < U64) : MachO.LoadCommands.next en ⟨c ++ tl, n + 1, off⟩ =
      (.ok (some ⟨field en c 0 4, off, c⟩), ⟨tl, n, off + c.length⟩) := by
  have hf4 : field en (c.take 8) 4 4 = c.length := by
    have := field_append en (c.take 8) (c.drop 8) 4 4 (by simp; omega)
    rw [List.take_append_drop] at this
    rw [← this, hsz]
  have hf0 : field en (c.take 8) 0 4 = field en c 0 4 := by
    have := field_append en (c.take 8) (c.drop 8) 0 4 (by simp; omega)
    rw [List.take_append_drop] at this
    rw [← this]
  have hp : MachO.LoadCommands.parse en ⟨c ++ tl, n + 1, off⟩ = (.ok ⟨field en c 0 4, off, c⟩, ⟨tl, n + 1, off + c.length⟩) := by
    have hra : Bytes.readAt (c ++ tl) 0 8 = .ok (c.take 8) := by
      simp only [Bytes.readAt, Bytes.readBytesAt, Bytes.skip, Bytes.readBytes, Nat.zero_le, if_true, List.drop_zero]
      rw [if_pos (by simp; omega), List.take_append_of_le_length h8]
    have hrb : Bytes.readBytes (c ++ tl) c.length = (.ok c, tl) := by simp [Bytes.readBytes]
    simp only [MachO.LoadCommands.parse, hra, hf4, hf0, if_neg (show ¬ c.length < 8 by omega), hrb,
      if_neg (show ¬ U64 ≤ off + c.length by omega)]
  simp [MachO.LoadCommands.next, hp]

/-- A list of commands with consecutive offsets. -/
def dataOf (en : Endianness) : Nat → List (List UInt8) → List MachO.LoadCommandData
  | _, [] => []
  | off, c :: cs => ⟨field en c 0 4, off, c⟩ :: dataOf en (off + c.length) cs

/-- `parseStep` for all commands. -/
def stepAll (c : Cfg) (data : List UInt8) : File → List MachO.LoadCommandData → Res File
  | f, [] => .ok f
  | f, d :: ds => (parseStep c data f d).bind fun f => stepAll c data f ds

theorem runs_cmds (en : Endianness) : ∀ (cs : List (List UInt8)) (off : Nat), (∀ c ∈ cs, 8 ≤ c.length ∧ field en c 4 4 = c.length) →
    off + cs.flatten.length < U64 →
    Runs (fun cs : MachO.LoadCommands => cs.next en) ⟨cs.flatten, cs.length, off⟩ (dataOf en off cs) .done
  | [], off, _, _ => Runs.done (s' := ⟨[], 0, off⟩) (by simp [MachO.LoadCommands.next])
  | c :: cs, off, h, hl => by
    obtain ⟨h1, h2⟩ := h c (by simp)
    rw [List.flatten_cons, List.length_append] at hl
    refine Runs.item ?_ (runs_cmds en cs (off + c.length) (fun d hd => h d (by simp [hd])) (by omega))
    exact next_cons en c cs.flatten cs.length off h1 h2 (by omega)

theorem parseLoop_cmds (c : Cfg) (data : List UInt8) : ∀ (cs : List (List UInt8)) (off : Nat) (f : File),
    (∀ d ∈ cs, 8 ≤ d.length ∧ field c.en d 4 4 = d.length) → off + cs.flatten.length < U64 →
    parseLoop c data cs.length ⟨cs.flatten, cs.length, off⟩ f = stepAll c data f (dataOf c.en off cs)
  | [], off, f, _, _ => rfl
  | d :: cs, off, f, h, hl => by
    obtain ⟨h1, h2⟩ := h d (by simp)
    rw [List.flatten_cons, List.length_append] at hl
    show parseLoop c data (cs.length + 1) ⟨d ++ cs.flatten, cs.length + 1, off⟩ f = _
    unfold parseLoop
    rw [next_cons c.en d cs.flatten cs.length off h1 h2 (by omega)]
    simp only [dataOf, stepAll]
    congr 1
    funext f'
    exact parseLoop_cmds c data cs (off + d.length) f' (fun x hx => h x (by simp [hx])) (by omega)

theorem readAt_all (l : List UInt8) : Bytes.readAt l 0 l.length = .ok l := by
  simp [Bytes.readAt, Bytes.readBytesAt, Bytes.skip, Bytes.readBytes]

theorem read_prefix (a b : List UInt8) : Bytes.read (a ++ b) a.length = (.ok a, b) := by
  simp [Bytes.read, Bytes.readBytes]

/-! ## Sections of a segment -/

theorem offsets_plain (e : Nat) : ∀ (ss : List Sect) (p : Nat), MachoR.sectionOffsets false e p ss = .ok (ss.map (·.offset))
  | [], _ => rfl
  | s :: ss, p => by
    unfold MachoR.sectionOffsets
    simp only
    rw [offsets_plain e ss p]; rfl

theorem zip_map_self {α β : Type} (f : α → β) : ∀ l : List α, l.zip (l.map f) = l.map fun x => (x, f x)
  | [] => rfl
  | x :: l => by rw [List.map_cons, List.zip_cons_cons, zip_map_self f l]; rfl

/-- The section as the reader keeps it. -/
def secInt (h : Sect) : SecInt := ⟨sectKind none h, h, h.offset⟩

theorem map_decode {α : Type} (enc : α → List UInt8) (dec : List UInt8 → α) (l : List α) (h : ∀ x ∈ l, dec (enc x) = x) :
    (l.map enc).map dec = l := by
  induction l with
  | nil => rfl
  | cons x l ih => simp only [List.map_cons]; rw [h x (by simp), ih (fun y hy => h y (by simp [hy]))]

theorem parseSections_eq (c : Cfg) (m : Mhdr) (s : Seg) (hs : List Sect) (hm : m.filetype = 1) (hn : s.nsects = hs.length)
    (hl : ∀ h ∈ hs, (h.encode c).length = sectSize c) (hd : ∀ h ∈ hs, Sect.decode c (h.encode c) = h)
    (he : s.fileoff + s.filesize < U32) (h64 : (hs.flatMap (Sect.encode c)).length < U64) :
    parseSections c m s (hs.flatMap (Sect.encode c)) = .ok (hs.map secInt) := by
  unfold parseSections
  have hA : At (hs.flatMap (Sect.encode c)) 0 (hs.flatMap (Sect.encode c)) := by
    unfold At slice; rw [List.drop_zero, List.take_length]
  rw [hn, Elf.readSliceAt_flatMap (Sect.encode c) (sectSize c) hs hl h64 hA]
  simp only [Res.ok_bind]
  rw [map_decode _ _ _ hd]
  have hu : U32 < U64 := by decide
  have e : s.sectionOffsets hs = .ok (hs.map (·.offset)) := by
    unfold Seg.sectionOffsets
    simp only
    rw [Nat.mod_eq_of_lt (by omega), decide_eq_false (by omega)]
    exact offsets_plain _ _ _
  have hr : readonlyOf m s = none := by unfold readonlyOf; rw [if_pos hm]
  rw [e, hr]
  simp only [Res.ok_bind]
  rw [zip_map_self, List.map_map]
  rfl

/-! ## Contents, relocations -/

theorem at_data (base : Nat) : ∀ (ss : List W.Section) (D : List UInt8) (i : Nat) (s : W.Section) (p : Nat × Nat), ss[i]? = some s →
    s.kind.isBss = false → (∀ s ∈ ss, s.kind.isBss = false → s.data.length = s.size) →
    (dataPlaces base D.length ss)[i]? = some p → At (emit D (dataParts ss)) p.1 s.data
  | [], _, _, _, _, h, _, _, _ => by simp at h
  | x :: ss, D, 0, s, p, h, hb, hc, hp => by
    simp only [List.getElem?_cons_zero, Option.some.injEq] at h
    subst h
    unfold dataPlaces at hp
    rw [hb] at hp
    simp only [Bool.false_eq_true, if_false, List.getElem?_cons_zero, Option.some.injEq] at hp
    subst hp
    rw [dataParts_cons, hb]
    simp only [Bool.false_eq_true, if_false]
    exact at_emit [] (dataParts ss) x.align x.data D
  | x :: ss, D, i + 1, s, p, h, hb, hc, hp => by
    simp only [List.getElem?_cons_succ] at h
    have hc' := fun y hy => hc y (List.mem_cons_of_mem x hy)
    unfold dataPlaces at hp
    rw [dataParts_cons]
    cases hx : x.kind.isBss with
    | true =>
      rw [hx] at hp
      simp only [if_true, List.getElem?_cons_succ] at hp ⊢
      exact at_data base ss D i s p h hb hc' hp
    | false =>
      rw [hx] at hp
      simp only [Bool.false_eq_true, if_false, List.getElem?_cons_succ, emit] at hp ⊢
      refine at_data base ss (pad D x.align ++ x.data) i s p h hb hc' ?_
      rw [List.length_append, length_pad, hc x (by simp) hx]
      exact hp

theorem at_prefix {a b l : List UInt8} {n : Nat} (h : At a n l) (hl : l ≠ []) : At (a ++ b) n l := by
  have := at_le h hl
  unfold At slice at *
  rw [List.drop_append_of_le_length (by omega), List.take_append_of_le_length (by rw [List.length_drop]; omega)]
  exact h

theorem at_shift {a b l : List UInt8} {n : Nat} (h : At b n l) : At (a ++ b) (a.length + n) l := by
  unfold At slice at *
  rw [← List.drop_drop, List.drop_left]; exact h

theorem at_relocs (c : Cfg) (o : W.Object) (hr : Recs o) (post : List (Nat × List UInt8)) : ∀ (ss : List W.Section) (out : List UInt8) (i : Nat)
    (s : W.Section), (∀ s ∈ ss, s ∈ o.sections) → ss[i]? = some s → cnt s ≠ 0 → ∃ p, (relPlaces c out.length ss)[i]? = some (p, cnt s) ∧
      At (emit out (relParts c o ss ++ post)) p ((recsOf o s).flatMap (RelInfo.bytes o.endian)) ∧
      p + cnt s * 8 ≤ endOf out.length (relSizes c ss)
  | [], _, _, _, _, h, _ => by simp at h
  | x :: ss, out, 0, s, hm, h, h0 => by
    simp only [List.getElem?_cons_zero, Option.some.injEq] at h
    subst h
    unfold relPlaces
    rw [if_pos h0, relParts_cons, if_pos h0, relSizes_cons, if_pos h0]
    refine ⟨up out.length c.w, by simp, at_emit [] (relParts c o ss ++ post) _ _ _, ?_⟩
    simp only [endOf]; exact le_endOf _ _
  | x :: ss, out, i + 1, s, hm, h, h0 => by
    simp only [List.getElem?_cons_succ] at h
    have hm' := fun y hy => hm y (List.mem_cons_of_mem x hy)
    unfold relPlaces
    rw [relParts_cons, relSizes_cons]
    by_cases hx : cnt x ≠ 0
    · rw [if_pos hx, if_pos hx, if_pos hx]
      simp only [List.getElem?_cons_succ, List.cons_append, emit, endOf]
      have hlen : (pad out c.w ++ (recsOf o x).flatMap (RelInfo.bytes o.endian)).length = up out.length c.w + cnt x * 8 := by
        rw [List.length_append, length_pad, length_recs, hr.length (hm x (by simp))]
      have := at_relocs c o hr post ss (pad out c.w ++ (recsOf o x).flatMap (RelInfo.bytes o.endian)) i s hm' h h0
      rw [hlen] at this
      exact this
    · rw [if_neg hx, if_neg hx, if_neg hx]
      simp only [List.getElem?_cons_succ]
      exact at_relocs c o hr post ss out i s hm' h h0

theorem relPlaces_zero (c : Cfg) : ∀ (ss : List W.Section) (a i : Nat) (s : W.Section), ss[i]? = some s → cnt s = 0 →
    (relPlaces c a ss)[i]? = some (0, 0)
  | [], _, _, _, h, _ => by simp at h
  | x :: ss, a, 0, s, h, h0 => by
    simp only [List.getElem?_cons_zero, Option.some.injEq] at h
    subst h
    unfold relPlaces; rw [if_neg (by omega)]; rfl
  | x :: ss, a, i + 1, s, h, h0 => by
    simp only [List.getElem?_cons_succ] at h
    unfold relPlaces
    split <;> simp only [List.getElem?_cons_succ] <;> exact relPlaces_zero c ss _ i s h h0

/-- The words of a record as read. -/
theorem words_of_bytes (e : Endianness) (r : RelInfo) :
    (rd e ((r.bytes e).take 4), rd e (((r.bytes e).drop 4).take 4)) = ((r.words e).1 % 4294967296, (r.words e).2) := by
  have h1 : (r.bytes e).take 4 = wr e 4 (r.words e).1 := List.take_left' (length_wr _ _ _)
  have h2 : ((r.bytes e).drop 4).take 4 = wr e 4 (r.words e).2 := by
    unfold RelInfo.bytes
    rw [List.drop_left' (length_wr _ _ _)]
    exact List.take_of_length_le (by simp)
  rw [h1, h2, rd_wr_mod, rd_wr_mod]
  have := word_lt e r
  have e4 : (256 : Nat) ^ 4 = 4294967296 := rfl
  rw [e4, Nat.mod_eq_of_lt this]

theorem tz_pow : ∀ (k n : Nat), k < n → tz n (2 ^ k) = k
  | 0, n + 1, _ => by unfold tz; rfl
  | k + 1, n + 1, h => by
    unfold tz
    rw [if_neg (by rw [Nat.pow_succ]; omega), show 2 ^ (k + 1) / 2 = 2 ^ k by rw [Nat.pow_succ]; omega, tz_pow k n (by omega)]
    omega
  | _, 0, h => by omega

theorem upToNul_pad (name : List UInt8) (n : Nat) (h : (0 : UInt8) ∉ name) : upToNul (name ++ List.replicate n 0) = name := by
  unfold upToNul
  rw [List.takeWhile_append_of_pos]
  · cases n with
    | zero => simp
    | succ n => simp [List.replicate_succ]
  · intro a ha
    simp only [ne_eq, decide_not, Bool.not_eq_eq_eq_not, Bool.not_true, decide_eq_false_iff_not]
    rintro rfl
    exact h ha

end Obj.MachoW
