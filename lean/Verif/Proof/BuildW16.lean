import Verif.Proof.BuildW15

/-! Writing with the ELF builder: the sections of versions. -/

namespace Obj.BuildW
open Obj Obj.Build Obj.BuildR Obj.Spec
open Obj.Spec.MachoF (Each num)
open Obj.Spec.ElfF (DataOf RecordsOf)
open Obj.Spec.BuildR (InFirst Defs Needs VersionsOf VersionOf SymVersions Tables StrAt DefOf NeedOf BaseOf indices isBase)
open Obj.Spec.BuildW (live Place Ref Sound isDef needsFrom versionOrder VerOk)
open Obj.Elf (Shdr WVerdef WVerneed WVernaux Verdef Verdaux Verneed Vernaux)

/-- A definition that is written. -/
structure DefW (o : TabOut) (v : Ver) (w : WVerdef) : Prop where
  names : ∃ n rest flags, v.data = .def_ (n :: rest) flags ∧ w.flags = flags ∧ StrIn o w.name n ∧ Each (fun s x => StrIn o x s) rest w.rest ∧
    rest.length + 1 < 65536 ∧ w.hash = Elf.sysvHash n
  version : w.version = 1
  index : w.index = (v.id + 2) % 65536

theorem defs_out {t : StrTab} {o : TabOut} (vs : List Ver) {ds : List (Option WVerdef)}
    (hs : ∀ v ∈ vs, ∀ s ∈ verStrings v, ∀ off, strOffset t s = .ok off → StrIn o off s)
    (h : Each (fun v d => defOut t v = .ok d) vs ds) : Each (DefW o) (vs.filter isDef) (ds.filterMap id) := by
  induction h with
  | nil => exact .nil
  | @cons v d vs ds h1 h2 ih =>
    have ih := ih (fun w hw => hs w (by simp [hw]))
    unfold defOut at h1
    cases hd : v.data with
    | need a b c =>
      simp only [hd] at h1
      cases h1
      have : isDef v = false := by simp [isDef, hd]
      rw [List.filter_cons_of_neg (by rw [this]; simp)]
      exact ih
    | def_ names flags =>
      have hst : ∀ s ∈ names, ∀ off, strOffset t s = .ok off → StrIn o off s := by
        intro s hm
        exact hs v (by simp) s (by simp only [verStrings, hd]; exact hm)
      simp only [hd] at h1
      split at h1
      · cases h1
      · next hlen =>
        split at h1
        · cases h1
        · next n rest =>
          simp only [Res.bind_eq_ok] at h1
          obtain ⟨off, q1, os, q2, q3⟩ := h1
          cases q3
          have : isDef v = true := by simp [isDef, hd]
          rw [List.filter_cons_of_pos this, List.filterMap_cons]
          refine .cons ⟨⟨n, rest, flags, hd, rfl, hst n (by simp) off q1, ?_, ?_, rfl⟩, rfl, rfl⟩ ih
          · have := (mapR_each _ _ _).1 q2
            exact each_imp this fun s hm x e => hst s (by simp [hm]) x e
          · simp only [List.length_cons] at hlen; omega

theorem DefW.fit {o : TabOut} {v : Ver} {w : WVerdef} (h : DefW o v w) (hv : VerOk v.data) : DefFit w := by
  obtain ⟨n, rest, flags, h1, h2, h3, h4, h5, h6⟩ := h.names
  rw [h1] at hv
  have hl := each_length h4
  refine ⟨h.version, by rw [h2]; exact hv.1, by rw [h.index]; exact Nat.mod_lt _ (by decide), ?_, by rw [h6]; exact sysv_lt _, ?_⟩
  · unfold Elf.WVerdef.auxCount; omega
  · intro x hx
    rcases List.mem_cons.1 hx with rfl | hx
    · exact h3.2.1
    · obtain ⟨s, -, hs⟩ := each_mem h4 hx
      exact hs.2.1

theorem defsBytes_len {o : TabOut} {en : Endianness} {vs : List Ver} {ws : List WVerdef} (h : Each (DefW o) vs ws) :
    (defsBytes en ws).length = 20 * vs.length + 8 * (vs.map nameCount).sum := by
  induction h with
  | nil => rfl
  | @cons v w vs ws h1 h2 ih =>
    unfold defsBytes
    rw [List.length_append, length_defOne, ih]
    obtain ⟨n, rest, flags, k1, -, -, k4, -⟩ := h1.names
    have := each_length k4
    have e : nameCount v = rest.length + 1 := by simp [nameCount, k1]
    simp only [List.length_cons, List.map_cons, List.sum_cons, e, Elf.WVerdef.auxCount]
    omega

theorem nameCount_defs (vs : List Ver) : ((vs.filter isDef).map nameCount).sum = (vs.map nameCount).sum := by
  induction vs with
  | nil => rfl
  | cons v vs ih =>
    rw [List.filter_cons]
    split
    · simp [ih]
    · next h =>
      have : nameCount v = 0 := by
        cases hd : v.data with
        | def_ a b => exact absurd (by simp [isDef, hd]) h
        | need a b c => simp [nameCount, hd]
      simp [ih, this]

/-- The base definition that is read. -/
def BaseW (o : TabOut) (base : Option (List UInt8)) (bs : List (Verdef × List Verdaux)) : Prop :=
  base = none ∧ bs = [] ∨ ∃ n v a, base = some n ∧ bs = [(v, [a])] ∧ v.flags = 1 ∧ v.ndx = 1 ∧ StrIn o a.name n

theorem verdef_ok {c : Full} {p : Plan} {d : List UInt8} (hp : PlanOk c p) (hv : ∀ v ∈ live c.tables.versions, VerOk v.data)
    (h : verdefBytes c p = .ok d) :
    d.length = p.ver.defs * 20 + p.ver.auxs * 8 ∧ ∃ bs ws, Each (DefW p.dynstr) ((live c.tables.versions).filter isDef) ws ∧
      BaseW p.dynstr c.versionBase bs ∧ Defs p.cfg.en d (bs ++ defRecs ws) := by
  obtain ⟨t, ht1, ht2, ht3⟩ := hp.ver
  obtain ⟨i, -⟩ := verInv ht1 ht2
  unfold verdefBytes at h
  simp only [Res.bind_eq_ok] at h
  obtain ⟨bb, h1, ds, h2, h3⟩ := h
  cases h3
  rw [iter_eq] at h2
  have hE := defs_out (o := p.dynstr) _ (fun v hv s hs => ht3 s (i.strings.2 v hv s hs)) ((mapR_each _ _ _).1 h2)
  have hE : Each (DefW p.dynstr) ((live c.tables.versions).filter isDef) (ds.filterMap id) := hE
  generalize hws : ds.filterMap id = ws at hE ⊢
  have hlen := defsBytes_len (en := p.cfg.en) hE
  rw [nameCount_defs] at hlen
  have hfit : ∀ w ∈ ws, DefFit w := by
    intro w hw
    obtain ⟨v, hv1, hv2⟩ := each_mem hE hw
    exact hv2.fit (hv v (List.mem_filter.1 hv1).1)
  have hdefs := i.defs
  have haux := i.auxs
  have hwl := each_length hE
  cases hbase : c.versionBase with
  | none =>
    rw [hbase] at h1 hdefs haux
    cases h1
    have hsh : p.ver.shared = false := by
      cases hs : p.ver.shared with
      | false => rfl
      | true => obtain ⟨_, _, _, _, e, _⟩ := i.shared hs; rw [hbase] at e; cases e
    rw [hsh] at haux
    simp only [Option.toList_none, List.length_nil, Bool.false_eq_true, if_false] at hdefs haux
    rw [List.nil_append]
    refine ⟨by omega, [], ws, hE, .inl ⟨rfl, rfl⟩, ?_⟩
    rw [List.nil_append]
    exact defs_blk ws hfit (by unfold Blk; simp [slice]) (by omega)
  | some n =>
    rw [hbase] at h1 hdefs haux
    unfold baseBytes at h1
    rw [Res.bind_eq_ok] at h1
    obtain ⟨off, q1, q2⟩ := h1
    have hn := ht3 n (i.strings.1 n hbase) off q1
    generalize hb : (⟨1, 1, 1, Elf.sysvHash n, off, [], false⟩ : WVerdef) = b at q2
    have hbf : DefFit b := by
      subst hb
      exact ⟨rfl, (by show 1 < 2 ^ 16; decide), (by show 1 < 2 ^ 16; decide), (by show 1 < 2 ^ 16; decide), sysv_lt _, by intro x hx; rw [List.mem_singleton.1 hx]; exact hn.2.1⟩
    have hbr : b.rest = [] := by subst hb; rfl
    have hbn : b.name = off := by subst hb; rfl
    have hb1 : b.flags = 1 ∧ b.index = 1 := by subst hb; exact ⟨rfl, rfl⟩
    have hba : b.auxCount = 1 := by subst hb; rfl
    simp only [Option.toList_some, List.length_cons, List.length_nil] at hdefs haux
    cases hsh : p.ver.shared with
    | false =>
      rw [hsh] at q2 haux
      simp only [Bool.false_eq_true, if_false, Res.ok.injEq] at q2 haux
      have hm : decide (p.ver.defs - 1 ≠ 0) = (ws.length != 0) := by
        rw [hwl]
        have : p.ver.defs - 1 = ((live c.tables.versions).filter isDef).length := by omega
        rw [this]
        cases ((live c.tables.versions).filter isDef).length <;> simp
      have e : bb ++ defsBytes p.cfg.en ws = defsBytes p.cfg.en (b :: ws) := by
        rw [← q2, hm]
        show _ = Elf.encVerdef p.cfg.en (ws.length != 0) b ++ Elf.writeVerdauxs p.cfg.en b.rest.length b.rest ++ defsBytes p.cfg.en ws
        rw [hbr]; simp [Elf.writeVerdauxs]
      rw [e]
      have hl2 : (defsBytes p.cfg.en (b :: ws)).length = 28 + (defsBytes p.cfg.en ws).length := by
        rw [defsBytes, List.length_append, length_defOne, hba]
      refine ⟨by rw [hl2]; omega, [(defRec (ws.length != 0) b, auxRecs (b.name :: b.rest))], ws, hE, .inr ?_, ?_⟩
      · refine ⟨n, defRec (ws.length != 0) b, ⟨off, 0⟩, rfl, ?_, hb1.1, hb1.2, hn⟩
        rw [hbr, hbn]; rfl
      · show Defs p.cfg.en _ (defRecs (b :: ws))
        refine defs_blk (b :: ws) ?_ (by unfold Blk; simp [slice]) (by omega)
        intro w hw
        rcases List.mem_cons.1 hw with rfl | hw
        · exact hbf
        · exact hfit w hw
    | true =>
      rw [hsh] at q2 haux
      simp only [if_true, Res.ok.injEq] at q2 haux
      obtain ⟨n', v, rest, flags, e1, e2, e3⟩ := i.shared hsh
      rw [hbase] at e1
      cases e1
      rw [e2] at hE
      obtain ⟨w, ws', rfl, hw1, hw2⟩ := each_cons_left.1 hE
      obtain ⟨n2, r2, f2, k1, k2, k3, k4, -⟩ := hw1.names
      rw [e3] at k1
      cases k1
      have hw0 : w.rest = [] := each_nil_left.1 k4
      have hl2 : bb.length = 20 := by rw [← q2]; simp [Elf.encVerdefShared]
      refine ⟨by rw [List.length_append, hl2]; omega, [(sharedRec b, auxRecs [w.name])], w :: ws', by rw [e2]; exact hE, .inr ?_, ?_⟩
      · exact ⟨n, sharedRec b, ⟨w.name, 0⟩, rfl, rfl, hb1.1, hb1.2, k3⟩
      · exact shared_blk hbf hbr hfit hw0 (by rw [q2])

/-! ## Required versions -/

structure NeedW (o : TabOut) (x : Nat × List UInt8 × Nat) (a : WVernaux) : Prop where
  flags : a.flags = x.2.2
  index : a.index = x.1 % 65536
  hash : a.hash = Elf.sysvHash x.2.1
  name : StrIn o a.name x.2.1

structure FileW (o : TabOut) (vs : List Ver) (f : VerFile) (w : WVerneed) : Prop where
  version : w.version = 1
  file : StrIn o w.file f.name
  auxs : Each (NeedW o) (vs.filterMap (needEntry f.id)) w.auxs
  count : w.auxs.length < 65536

theorem needEntry_mem {vs : List Ver} {f : Nat} {x : Nat × List UInt8 × Nat} (h : x ∈ vs.filterMap (needEntry f)) :
    ∃ v ∈ vs, v.data = .need f x.2.1 x.2.2 ∧ x.1 = v.id + 2 := by
  obtain ⟨v, hv, e⟩ := List.mem_filterMap.1 h
  unfold needEntry at e
  cases hd : v.data with
  | def_ a b => simp [hd] at e
  | need a b c =>
    simp only [hd] at e
    split at e
    · next hf => cases e; exact ⟨v, hv, by rw [hd, hf], rfl⟩
    · cases e

theorem file_out {c : Full} {p : Plan} (hp : PlanOk c p) {f : VerFile} (hf : f ∈ live c.tables.versionFiles) {w : WVerneed} (h : fileOut p f = .ok w) :
    FileW p.dynstr (live c.tables.versions) f w := by
  obtain ⟨t, ht1, ht2, ht3⟩ := hp.ver
  obtain ⟨i, i2⟩ := verInv ht1 ht2
  unfold fileOut at h
  split at h
  · cases h
  · next l hl =>
    have e := i.files _ _ hl
    split at h
    · cases h
    · next hlen =>
      simp only [Res.bind_eq_ok] at h
      obtain ⟨o, h1, as, h2, h3⟩ := h
      cases h3
      have hE := (mapR_each _ _ _).1 h2
      refine ⟨rfl, ht3 _ (i2 f hf) _ h1, ?_, by rw [each_length hE]; omega⟩
      rw [← e]
      refine each_imp hE ?_
      intro x hx a ha
      unfold needOut at ha
      rw [Res.bind_eq_ok] at ha
      obtain ⟨off, q1, q2⟩ := ha
      cases q2
      rw [e] at hx
      obtain ⟨v, hv, e1, e2⟩ := needEntry_mem hx
      exact ⟨rfl, rfl, rfl, ht3 _ (i.strings.2 v hv _ (by simp [verStrings, e1])) _ q1⟩

theorem FileW.fit {o : TabOut} {vs : List Ver} {f : VerFile} {w : WVerneed} (h : FileW o vs f w) (hv : ∀ v ∈ vs, VerOk v.data) : FileFit w := by
  refine ⟨h.version, h.count, h.file.2.1, ?_⟩
  intro a ha
  obtain ⟨x, hx, hn⟩ := each_mem h.auxs ha
  obtain ⟨v, hv1, e1, e2⟩ := needEntry_mem hx
  have := hv v hv1
  rw [e1] at this
  exact ⟨by rw [hn.hash]; exact sysv_lt _, by rw [hn.flags]; exact this, by rw [hn.index]; exact Nat.mod_lt _ (by decide), hn.name.2.1⟩

theorem needBytes_len {o : TabOut} {en : Endianness} {vs : List Ver} {fs : List VerFile} {ws : List WVerneed} (h : Each (FileW o vs) fs ws) :
    (Elf.verneedBytes en ws).length = 16 * fs.length + 16 * (fs.map fun f => (vs.filterMap (needEntry f.id)).length).sum := by
  induction h with
  | nil => rfl
  | @cons f w fs ws h1 h2 ih =>
    unfold Elf.verneedBytes
    rw [List.length_append, length_needOne, ih]
    have := each_length h1.auxs
    simp only [List.length_cons, List.map_cons, List.sum_cons]
    omega

theorem verneed_ok {c : Full} {p : Plan} {d : List UInt8} (hp : PlanOk c p) (hs : Sound c) (h : verneedBytes c p = .ok d) :
    d.length = p.verneeds * 16 + p.ver.vernauxs * 16 ∧ ∃ ws, Each (FileW p.dynstr (live c.tables.versions)) (live c.tables.versionFiles) ws ∧
      Needs p.cfg.en d (needRecs ws) := by
  obtain ⟨t, ht1, ht2, ht3⟩ := hp.ver
  obtain ⟨i, i2⟩ := verInv ht1 ht2
  unfold verneedBytes at h
  rw [Res.bind_eq_ok] at h
  obtain ⟨ws, h1, h2⟩ := h
  cases h2
  have hvn := hp.verneeds
  rw [iter_eq] at h1 hvn
  have hE : Each (FileW p.dynstr (live c.tables.versions)) (live c.tables.versionFiles) ws :=
    each_imp ((mapR_each _ _ _).1 h1) fun f hf w e => file_out hp hf e
  have hlen := needBytes_len (en := p.cfg.en) hE
  have hnd : ((live c.tables.versionFiles).map (·.id)).Nodup := by
    have := ids_nodup hs.ids.2.2.2.2
    rwa [iter_eq] at this
  rw [needs_count hnd] at hlen
  · refine ⟨by rw [hlen, i.vernauxs, hvn]; simp only [live]; omega, ws, hE, ?_⟩
    refine needs_blk ws ?_ (by unfold Blk; simp [slice]) (by omega)
    intro w hw
    obtain ⟨f, -, hf⟩ := each_mem hE hw
    exact hf.fit hs.verOk
  · intro v hv file name flags e
    have := hs.versions.2 v hv file name flags e
    obtain ⟨f, hf1, hf2⟩ := this
    refine List.mem_map.2 ⟨f, ?_, hs.ids.2.2.2.2 _ _ hf1⟩
    exact List.mem_filter.2 ⟨List.mem_of_getElem? hf1, by simpa using hf2⟩

end Obj.BuildW
