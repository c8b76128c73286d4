import Verif.Proof.PeW4
import Verif.Proof.CoffW6

/-! The bytes of the whole image. -/

namespace Obj.PeW
open Obj Obj.Pe Obj.Reserve Obj.Spec Obj.Spec.PeFile Obj.Spec.PeW

/-- The NT headers and the section headers. -/
def hdrBytes (p : Prog) (w : State) : List UInt8 :=
  wr .little 4 0x4550 ++
  Coff.FileHeader.encode ⟨p.nt.machine, w.headerNum, p.nt.timeDateStamp, 0, 0, optLen p, p.nt.characteristics⟩ ++
  OptHeader.encode w.is64 (w.optHeader p.nt) ++ w.dirs.flatMap dirBytes ++
  w.secs.flatMap fun s => Coff.Section.encode (sectionHeader s)

theorem length_optEncode (is64 : Bool) (h : OptHeader) : (OptHeader.encode is64 h).length = optSize is64 := by
  cases is64 <;> simp [OptHeader.encode, OptHeader.fields32, OptHeader.fields64, optSize]

theorem length_fileEncode (h : Coff.FileHeader) : h.encode.length = 20 := by simp [Coff.FileHeader.encode]

theorem length_dirBytes (d : DataDir) : (dirBytes d).length = 8 := by simp [dirBytes]

/-- Facts about the sections. -/
theorem entry_ok {p : Prog} (hv : Valid p) (rb : List UInt8) : ∀ s ∈ p.sections, (Obj.Spec.PeW.entry rb s).name.length = 8 ∧
    (Obj.Spec.PeW.entry rb s).characteristics < 2 ^ 32 ∧ Fits p.fileAlign (Obj.Spec.PeW.entry rb s) := by
  intro s hs
  have full : ∀ d : List UInt8, d.length ≤ d.length ∧ d.length ≤ roundUp d.length p.fileAlign := fun d => ⟨Nat.le_refl _, le_ru _ hv.fileAlign⟩
  cases s with
  | custom n c v s d =>
    obtain ⟨h1, h2, h3, h4⟩ := hv.custom n c v s d hs
    exact ⟨h1, h2, h3, h4⟩
  | text d => exact ⟨show (name8 ".text").length = 8 by decide +kernel, by simp [Obj.Spec.PeW.entry], full d⟩
  | data v d => exact ⟨show (name8 ".data").length = 8 by decide +kernel, by simp [Obj.Spec.PeW.entry], full d⟩
  | rdata d => exact ⟨show (name8 ".rdata").length = 8 by decide +kernel, by simp [Obj.Spec.PeW.entry], full d⟩
  | bss n => exact ⟨show (name8 ".bss").length = 8 by decide +kernel, by simp [Obj.Spec.PeW.entry], full []⟩
  | idata d => exact ⟨show (name8 ".idata").length = 8 by decide +kernel, by simp [Obj.Spec.PeW.entry], full d⟩
  | edata d => exact ⟨show (name8 ".edata").length = 8 by decide +kernel, by simp [Obj.Spec.PeW.entry], full d⟩
  | pdata d => exact ⟨show (name8 ".pdata").length = 8 by decide +kernel, by simp [Obj.Spec.PeW.entry], full d⟩
  | xdata d => exact ⟨show (name8 ".xdata").length = 8 by decide +kernel, by simp [Obj.Spec.PeW.entry], full d⟩
  | rsrc d => exact ⟨show (name8 ".rsrc").length = 8 by decide +kernel, by simp [Obj.Spec.PeW.entry], full d⟩
  | reloc => exact ⟨show (name8 ".reloc").length = 8 by decide +kernel, by simp [Obj.Spec.PeW.entry], full rb⟩

theorem length_place (sa fa : Nat) : ∀ (es : List Entry) (v l : Nat), (place sa fa v l es).length = es.length
  | [], _, _ => rfl
  | e :: es, v, l => by simp only [place, List.length_cons, length_place sa fa es]

theorem Final.length_dirs {p : Prog} {rb : List UInt8} {R : RelocWriter} {rs : List SectionRange} {w : State} (h : Final p rb R rs w) :
    w.dirs.length = p.dirNum := by rw [h.dirs, length_setAll, List.length_replicate]

theorem Final.length_secs {p : Prog} {rb : List UInt8} {R : RelocWriter} {rs : List SectionRange} {w : State} (h : Final p rb R rs w) :
    w.secs.length = p.sections.length := by
  rw [h.secs, List.length_map, List.length_zip, h.lengths, List.length_map, Nat.min_self]

theorem Final.secs_name {p : Prog} {rb : List UInt8} {R : RelocWriter} {rs : List SectionRange} {w : State} (hv : Valid p) (h : Final p rb R rs w) :
    ∀ s ∈ w.secs, (Coff.Section.encode (sectionHeader s)).length = 40 := by
  intro s hs
  rw [h.secs, List.mem_map] at hs
  obtain ⟨⟨r, e⟩, hm, rfl⟩ := hs
  obtain ⟨s, hs, rfl⟩ := List.mem_map.1 (List.of_mem_zip hm).2
  exact Coff.Section.length_encode _ (entry_ok hv rb s hs).1

theorem length_hdr {p : Prog} {rb : List UInt8} {R : RelocWriter} {rs : List SectionRange} {w : State} (hv : Valid p) (h : Final p rb R rs w) :
    (hdrBytes p w).length = 24 + optLen p + 40 * p.sections.length := by
  unfold hdrBytes
  rw [List.length_append, Elf.length_flatMap_const _ 40 _ (h.secs_name hv), List.length_append, Elf.length_flatMap_const _ 8 _ (fun d _ => length_dirBytes d),
    List.length_append, length_optEncode, List.length_append, length_fileEncode, length_wr, h.length_dirs, h.length_secs, h.is64]
  unfold optLen
  rw [fixed_opt]
  omega

theorem length_dos {p : Prog} (hv : Valid p) : ((dosParts p.dos).1 ++ wr .little 4 (Obj.Spec.PeW.ntOffset p)).length = 64 := by
  rw [List.length_append, length_wr]
  have : (dosParts p.dos).1.length = 60 := by
    cases h : p.dos with
    | standard => show stubDos.length = 60; decide +kernel
    | empty => show emptyDos.length = 60; decide +kernel
    | custom head => exact (hv.dos head h).1
  omega

/-- The bytes before the sections. -/
def front (p : Prog) (w : State) : List UInt8 :=
  let x := ext ((dosParts p.dos).1 ++ wr .little 4 (Obj.Spec.PeW.ntOffset p) ++ (dosParts p.dos).2) p.extra
  x ++ List.replicate (Obj.Spec.PeW.ntOffset p - x.length) 0 ++ hdrBytes p w

theorem writeDos_eq {p : Prog} (hv : Valid p) (w : State) (ho : w.out = []) (hn : w.ntOffset = Obj.Spec.PeW.ntOffset p) :
    w.writeDos p.dos = .ok { w with out := (dosParts p.dos).1 ++ wr .little 4 (Obj.Spec.PeW.ntOffset p) ++ (dosParts p.dos).2 } := by
  have hl := length_dos hv
  have one : ∀ head, head = (dosParts p.dos).1 → w.writeDosHeader head w.ntOffset = .ok { w with out := head ++ wr .little 4 (Obj.Spec.PeW.ntOffset p) } := by
    rintro head rfl
    unfold State.writeDosHeader
    rw [if_neg (by simp [ho]), write_eq _ _ (by rw [ho, hn, hl]; decide), ho, List.nil_append, hn]
  cases h : p.dos with
  | standard =>
    unfold State.writeDos
    rw [h] at one hl
    simp only [Res.bind_eq]
    rw [one stubDos rfl, Res.ok_bind, write_eq _ _ (by
      dsimp only
      show ((dosParts .standard).1 ++ _).length + _ < _
      rw [hl]; decide)]
    rfl
  | empty =>
    rw [h] at one
    show w.writeDosHeader emptyDos w.ntOffset = _
    rw [one emptyDos rfl]
    simp only [dosParts, List.append_nil]
  | custom head =>
    rw [h] at one
    show w.writeDosHeader head w.ntOffset = _
    rw [one head rfl]
    simp only [dosParts, List.append_nil]

/-- Facts about the size of the headers. -/
structure Sizes (p : Prog) : Prop where
  dos : 64 ≤ after (64 + (dosParts p.dos).2.length) p.extra
  nt : after (64 + (dosParts p.dos).2.length) p.extra ≤ Obj.Spec.PeW.ntOffset p
  headers : Obj.Spec.PeW.ntOffset p + 24 + optLen p + 40 * p.sections.length ≤ headers p
  headersMod : Obj.Spec.PeW.headers p % p.fileAlign = 0

theorem sizes_ok {p : Prog} (hv : Valid p) : Sizes p := by
  refine ⟨?_, le_ru _ pow2_eight, le_ru _ hv.fileAlign, ru_mod _ hv.fileAlign⟩
  have := le_after p.extra (64 + (dosParts p.dos).2.length) (fun x hx => (hv.extra x hx).1)
  omega

theorem length_x {p : Prog} (hv : Valid p) :
    (ext ((dosParts p.dos).1 ++ wr .little 4 (Obj.Spec.PeW.ntOffset p) ++ (dosParts p.dos).2) p.extra).length =
      after (64 + (dosParts p.dos).2.length) p.extra := by
  rw [length_ext _ _ (fun x hx => (hv.extra x hx).1), List.length_append, length_dos hv]

theorem length_front {p : Prog} {rb : List UInt8} {R : RelocWriter} {rs : List SectionRange} {w : State} (hv : Valid p) (h : Final p rb R rs w) :
    (front p w).length = Obj.Spec.PeW.ntOffset p + 24 + optLen p + 40 * p.sections.length := by
  have := (sizes_ok hv).nt
  unfold front
  dsimp only
  rw [List.length_append, length_hdr hv h, List.length_append, List.length_replicate, length_x hv]
  omega

/-- What is in the file. -/
structure Bytes (p : Prog) (w : State) (es : List Entry) (rs : List SectionRange) (out : List UInt8) : Prop where
  le : out.length ≤ w.lay.len
  ge : Obj.Spec.PeW.ntOffset p + 24 + optLen p + 40 * p.sections.length ≤ out.length
  dos : At out 0 ((dosParts p.dos).1 ++ wr .little 4 (Obj.Spec.PeW.ntOffset p) ++ (dosParts p.dos).2)
  extra : ∀ pre a b post, p.extra = pre ++ (a, b) :: post → At out (roundUp (after (64 + (dosParts p.dos).2.length) pre) a) b
  hdr : At out (Obj.Spec.PeW.ntOffset p) (hdrBytes p w)
  secs : ∀ r e, (r, e) ∈ rs.zip es → e.dataSize ≠ 0 → At out r.fileOffset (Obj.Spec.PeW.content p.fileAlign e) ∧
    r.fileOffset + roundUp e.dataSize p.fileAlign ≤ out.length
  cert : ∀ c, p.cert = some c → c ≠ [] →
    At out (roundUp (fileEnd p es) 8) (c ++ List.replicate (roundUp c.length 8 - c.length) 0)

theorem last_dir {ds : List DataDir} {d : DataDir} (h : 4 < ds.length) (sets : List (Nat × DataDir)) (hl : (setAll ds sets).length = ds.length) :
    (setAll ds (sets ++ [(4, d)]))[4]? = some d := by
  rw [setAll_append]
  show ((setAll ds sets).set 4 d)[4]? = _
  rw [List.getElem?_set_self (by omega)]

theorem writeAll_ok {p : Prog} {rb : List UInt8} {R : RelocWriter} {rs : List SectionRange} {w : State} (hv : Valid p) (h : Final p rb R rs w)
    (h32 : w.lay.len < U32) (hR : .reloc ∈ p.sections → R.write = .ok rb) :
    ∃ out, writeAll p rs w = .ok out ∧ Bytes p w (p.sections.map (Obj.Spec.PeW.entry rb)) rs out := by
  have hsz := sizes_ok hv
  have hlen := h.len
  have hce := le_certEnd (fileEnd p (p.sections.map (Obj.Spec.PeW.entry rb))) p.cert
  have hef : headers p ≤ fileEnd p (p.sections.map (Obj.Spec.PeW.entry rb)) := endFile_le hv.fileAlign _ _
  have hd1 := hsz.dos
  have hd2 := hsz.nt
  have hd3 := hsz.headers
  have hx := length_x hv
  have hh := length_hdr hv h
  generalize hX : ext ((dosParts p.dos).1 ++ wr .little 4 (Obj.Spec.PeW.ntOffset p) ++ (dosParts p.dos).2) p.extra = X at hx
  have hfr : front p w = X ++ List.replicate (Obj.Spec.PeW.ntOffset p - X.length) 0 ++ hdrBytes p w := by rw [← hX]; rfl
  have hlf := length_front hv h
  -- the headers
  have e1 : w.writeDos p.dos = _ := writeDos_eq hv w h.out h.ntOffset
  have e2 := writeExtra_eq p.extra { w with out := (dosParts p.dos).1 ++ wr .little 4 (Obj.Spec.PeW.ntOffset p) ++ (dosParts p.dos).2 }
    (fun x hx => (hv.extra x hx).1) (by
      dsimp only
      rw [List.length_append, length_dos hv]; omega)
  dsimp only at e2
  rw [hX] at e2
  have hoptlen : w.dirs.length % U32 = p.dirNum ∧ optSize w.is64 + p.dirNum * 8 = optLen p ∧ optLen p < 65536 := by
    have h1 := hv.dirNum
    have h2 : optLen p = optSize p.is64 + 8 * p.dirNum := rfl
    simp only [Nat.reducePow] at h1
    rw [h.length_dirs, h.is64]
    exact ⟨Nat.mod_eq_of_lt (by omega), by omega, h1⟩
  obtain ⟨o1, o2, o3⟩ := hoptlen
  have hos : ∀ o, ({ w with out := o } : State).optionalHeaderSize = .ok (optLen p) := by
    intro o
    unfold State.optionalHeaderSize mulU32 addU32
    dsimp only
    rw [o1, if_pos (by omega)]
    simp only [Res.bind_eq, Res.ok_bind]
    rw [if_pos (by omega), o2]
  have e3 : ({ w with out := X } : State).writeNtHeaders p.nt = .ok { w with out := X ++ List.replicate (Obj.Spec.PeW.ntOffset p - X.length) 0 ++
      (wr .little 4 0x4550 ++ Coff.FileHeader.encode ⟨p.nt.machine, w.headerNum, p.nt.timeDateStamp, 0, 0, optLen p, p.nt.characteristics⟩ ++
      OptHeader.encode w.is64 (w.optHeader p.nt) ++ w.dirs.flatMap dirBytes) } := by
    have hl := hh
    unfold hdrBytes at hl
    simp only [List.length_append] at hl
    have hxl : (X ++ List.replicate (Obj.Spec.PeW.ntOffset p - X.length) (0 : UInt8)).length = Obj.Spec.PeW.ntOffset p := by
      rw [List.length_append, List.length_replicate]; omega
    simp only [List.length_append] at hxl
    unfold State.writeNtHeaders
    simp only [Res.bind_eq]
    have hpad : ({ w with out := X } : State).padUntil w.ntOffset = .ok { w with out := X ++ List.replicate (Obj.Spec.PeW.ntOffset p - X.length) 0 } := by
      rw [padUntil_eq _ _ (by dsimp only; rw [h.ntOffset]; omega)]
      dsimp only
      rw [← h.ntOffset]
    rw [hpad, Res.ok_bind]
    rw [write_eq _ _ (by dsimp only; simp only [List.length_append, hxl]; omega), Res.ok_bind]
    dsimp only
    rw [hos, Res.ok_bind]
    rw [Nat.mod_eq_of_lt o3, write_eq _ _ (by dsimp only; simp only [List.length_append, hxl]; omega), Res.ok_bind]
    dsimp only
    have hop : ∀ o, ({ w with out := o } : State).optHeader p.nt = w.optHeader p.nt := fun _ => rfl
    rw [hop, write_eq _ _ (by dsimp only; simp only [List.length_append, hxl]; omega), Res.ok_bind]
    dsimp only
    rw [write_eq _ _ (by dsimp only; simp only [List.length_append, hxl]; omega)]
    dsimp only
    simp only [List.append_assoc]
  have e4 : ({ w with out := X ++ List.replicate (Obj.Spec.PeW.ntOffset p - X.length) 0 ++
      (wr .little 4 0x4550 ++ Coff.FileHeader.encode ⟨p.nt.machine, w.headerNum, p.nt.timeDateStamp, 0, 0, optLen p, p.nt.characteristics⟩ ++
      OptHeader.encode w.is64 (w.optHeader p.nt) ++ w.dirs.flatMap dirBytes) } : State).writeSectionHeaders = .ok { w with out := front p w } := by
    have hl := hlf
    rw [hfr] at hl
    unfold hdrBytes at hl
    simp only [List.length_append] at hl
    unfold State.writeSectionHeaders
    dsimp only
    rw [if_neg (by rw [h.headerNum, h.length_secs]; simp), write_eq _ _ (by dsimp only; simp only [List.length_append]; omega), hfr]
    unfold hdrBytes
    dsimp only
    simp only [List.append_assoc]
  -- the sections
  have hrs := h.ranges
  obtain ⟨tl, e5, e6, e7⟩ := writeSecs_ok (sa := p.sectionAlign) (rb := rb) hv.fileAlign p.sections { w with out := front p w }
    (roundUp (headers p) p.sectionAlign) (headers p) h.fa (fun s hs => (entry_ok hv rb s hs).2.2) (by dsimp only; omega) (by omega)
    (by
      intro r hr
      rw [← hrs] at hr
      obtain ⟨k1, k2⟩ := h.relocs r hr
      dsimp only
      rw [k1]
      exact ⟨hR (List.of_mem_zip hr).2, k2⟩) (by
      show fileEnd p _ < _
      omega)
  rw [← hrs] at e5 e7
  dsimp only at e5 e6 e7
  -- the certificates
  have e8 : ∃ tl2, ({ w with out := front p w ++ tl } : State).writeCertOpt p.cert = .ok { w with out := front p w ++ tl ++ tl2 } ∧
      (front p w ++ tl ++ tl2).length ≤ certEnd (fileEnd p (p.sections.map (Obj.Spec.PeW.entry rb))) p.cert ∧
      ∀ c, p.cert = some c → c ≠ [] →
        At (front p w ++ tl ++ tl2) (roundUp (fileEnd p (p.sections.map (Obj.Spec.PeW.entry rb))) 8) (c ++ List.replicate (roundUp c.length 8 - c.length) 0) := by
    have e6' : (front p w ++ tl).length ≤ fileEnd p (p.sections.map (Obj.Spec.PeW.entry rb)) := e6
    generalize front p w ++ tl = O at e6' ⊢
    generalize hE : fileEnd p (p.sections.map (Obj.Spec.PeW.entry rb)) = E at *
    have hd := h.dirs
    rw [certDir_eq, hE] at hd
    have h4 := h.cert
    have hsz := h.certSize
    cases hc : p.cert with
    | none =>
      refine ⟨[], by rw [List.append_nil]; rfl, ?_, by simp⟩
      rw [List.append_nil]; exact e6'
    | some c =>
      rw [hc] at hd h4 hsz hlen
      have hsz := hsz c rfl
      have h4' := h4 (by simp)
      rw [h.length_dirs] at h4'
      have h8 := le_ru c.length pow2_eight
      have hE8 := le_ru E pow2_eight
      have gen : ∀ o n, w.dirs[4]? = some ⟨o, n⟩ → (O.length ≤ o) → n = roundUp c.length 8 → o + n < U32 →
          ({ w with out := O } : State).writeCertOpt (some c) =
          .ok { w with out := O ++ (List.replicate (o - O.length) 0 ++ (c ++ List.replicate (n - c.length) 0)) } := by
        intro o n hg ho hn hon
        unfold State.writeCertOpt State.writeCert
        dsimp only
        rw [hg]
        dsimp only
        have hxl : (O ++ List.replicate (o - O.length) (0 : UInt8)).length = o := by
          rw [List.length_append, List.length_replicate]; omega
        have hxl2 : (O ++ List.replicate (o - O.length) (0 : UInt8) ++ c).length = o + c.length := by
          rw [List.length_append, hxl]
        simp only [Res.bind_eq]
        rw [padUntil_eq _ _ (by dsimp only; omega), Res.ok_bind]
        dsimp only
        rw [write_eq _ _ (by dsimp only; rw [hxl]; omega), Res.ok_bind]
        unfold addU32
        rw [if_pos hon, Res.ok_bind, padUntil_eq _ _ (by dsimp only; rw [hxl2]; omega)]
        dsimp only
        rw [hxl2]
        simp only [List.append_assoc]
        rw [show o + n - (o + c.length) = n - c.length by omega]
      cases c with
      | nil =>
        have hg : w.dirs[4]? = some ⟨E, 0⟩ := by
          rw [hd]
          exact last_dir (by rw [List.length_replicate]; exact h4') _ (length_setAll _ _)
        refine ⟨_, gen _ _ hg e6' (roundUp_zero (by decide)).symm (by
          simp only [certEnd] at hlen; omega), ?_, by simp⟩
        simp only [List.length_append, List.length_replicate, List.length_nil, certEnd]
        omega
      | cons b c =>
        have hg : w.dirs[4]? = some ⟨roundUp E 8, roundUp (b :: c).length 8⟩ := by
          rw [hd]
          exact last_dir (by rw [List.length_replicate]; exact h4') _ (length_setAll _ _)
        simp only [certEnd] at hlen
        refine ⟨_, gen _ _ hg (by omega) rfl (by omega), ?_, ?_⟩
        · simp only [certEnd]
          simp only [List.length_append, List.length_replicate]
          omega
        · intro c' hc' _
          cases hc'
          have hm := Parts.at_mid (O ++ List.replicate (roundUp E 8 - O.length) (0 : UInt8))
            ((b :: c) ++ List.replicate (roundUp (b :: c).length 8 - (b :: c).length) 0) []
          have hxl : (O ++ List.replicate (roundUp E 8 - O.length) (0 : UInt8)).length = roundUp E 8 := by
            rw [List.length_append, List.length_replicate]; omega
          rw [hxl, List.append_nil, List.append_assoc] at hm
          exact hm
  obtain ⟨tl2, e8, e9, e10⟩ := e8
  refine ⟨front p w ++ tl ++ tl2, ?_, ?_⟩
  · unfold writeAll
    simp only [Res.bind_eq]
    rw [e1, Res.ok_bind, e2, Res.ok_bind, e3, Res.ok_bind, e4, Res.ok_bind, e5, Res.ok_bind, e8, Res.ok_bind]
  · have hpre : ∃ t, front p w ++ tl ++ tl2 = X ++ t := ⟨List.replicate (Obj.Spec.PeW.ntOffset p - X.length) 0 ++ hdrBytes p w ++ (tl ++ tl2), by
      rw [hfr]; simp only [List.append_assoc]⟩
    obtain ⟨t, ht⟩ := hpre
    constructor
    · rw [hlen]; exact e9
    · rw [List.length_append, List.length_append, hlf]; omega
    · obtain ⟨t', ht'⟩ := ext_prefix p.extra ((dosParts p.dos).1 ++ wr .little 4 (Obj.Spec.PeW.ntOffset p) ++ (dosParts p.dos).2)
      rw [ht, ← hX, ht', List.append_assoc _ t' t]
      have := Parts.at_mid [] ((dosParts p.dos).1 ++ wr .little 4 (Obj.Spec.PeW.ntOffset p) ++ (dosParts p.dos).2) (t' ++ t)
      exact this
    · intro pre a b post hp
      have := at_ext pre a b post ((dosParts p.dos).1 ++ wr .little 4 (Obj.Spec.PeW.ntOffset p) ++ (dosParts p.dos).2)
        (by rw [← hp]; exact fun x hx => (hv.extra x hx).1)
      rw [List.length_append, length_dos hv, ← hp, hX] at this
      rw [ht]
      exact at_grow t this.1 this.2
    · have hm := Parts.at_mid (X ++ List.replicate (Obj.Spec.PeW.ntOffset p - X.length) (0 : UInt8)) (hdrBytes p w) (tl ++ tl2)
      have hxl : (X ++ List.replicate (Obj.Spec.PeW.ntOffset p - X.length) (0 : UInt8)).length = Obj.Spec.PeW.ntOffset p := by
        rw [List.length_append, List.length_replicate]; omega
      rw [hxl] at hm
      rw [hfr, List.append_assoc _ tl tl2]
      exact hm
    · intro r e hm h0
      obtain ⟨k1, k2⟩ := e7 r e hm h0
      obtain ⟨s, hs, rfl⟩ := List.mem_map.1 (List.of_mem_zip hm).2
      refine ⟨at_grow tl2 k1 (by rw [length_content hv.fileAlign (entry_ok hv rb s hs).2.2]; exact k2), ?_⟩
      rw [List.length_append]
      omega
    · exact e10

end Obj.PeW
