import Verif.Proof.MachoBW5

/-! Writing with the Mach-O builder: the header and the list of load commands. -/

namespace Obj.MachoB
open Obj Obj.MachoR
open Obj.BuildW (mapR mapR_each Blk)
open Obj.Spec.MachoF (Each num headerSize headerIn IsCommand)
open Obj.Spec.MachoB

/-- A load command with its bytes. -/
def CmdOut (b : Builder) (o : Order) (l : Layout) (out : List UInt8) (k : Cmd) (bs : List UInt8) : Prop :=
  k ∈ b.commands ∧ (∃ lk, cmdBytes b.cfg b o l k lk = .ok bs) ∧ bs.length < 2 ^ 32 ∧ cmdSize b.cfg b o k = .ok bs.length ∧ IsCommand b.endian bs ∧
    ∀ k', CmdSame k k' → CommandIs b.endian out bs k'

theorem length_mem_flatten {ks : List (List UInt8)} {k : List UInt8} (h : k ∈ ks) : k.length ≤ ks.flatten.length := by
  induction ks with
  | nil => cases h
  | cons x ks ih =>
    rw [List.flatten_cons, List.length_append]
    rcases List.mem_cons.1 h with rfl | h
    · omega
    · have := ih h; omega

theorem each_zip_left {α β γ : Type} {P : α × β → γ → Prop} {Q : α → γ → Prop} {xs : List α} {ys : List β} {zs : List γ} (hl : ys.length = xs.length)
    (h : Each P (xs.zip ys) zs) (hi : ∀ p ∈ xs.zip ys, ∀ z ∈ zs, P p z → Q p.1 z) : Each Q xs zs := by
  refine BuildW.each_of_forall ?_ fun i x z hx hz => ?_
  · rw [BuildR.each_length h, List.length_zip]; omega
  · obtain ⟨p, hp, e⟩ := BuildR.each_get h hz
    have := hi p (List.mem_of_getElem? hp) z (List.mem_of_getElem? hz) e
    rw [List.getElem?_zip_eq_some] at hp
    rw [hx] at hp
    cases hp.1
    exact this

theorem flatten_ge {ks : List (List UInt8)} (h : ∀ k ∈ ks, 8 ≤ k.length) : 8 * ks.length ≤ ks.flatten.length := by
  induction ks with
  | nil => simp
  | cons x ks ih =>
    rw [List.flatten_cons, List.length_append, List.length_cons]
    have := h x (by simp)
    have := ih fun k hk => h k (by simp [hk])
    omega

theorem sizes_sum {b : Builder} {o : Order} {cs : List Cmd} {sizes : List Nat} {ks : List (List UInt8)} (h : mapR (cmdSize b.cfg b o) cs = .ok sizes)
    (hk : Each (fun k (bs : List UInt8) => cmdSize b.cfg b o k = .ok bs.length) cs ks) : sizes.sum = ks.flatten.length := by
  rw [mapR_each] at h
  induction hk generalizing sizes with
  | nil => cases h; rfl
  | cons h1 _ ih =>
    cases h with | cons g1 g2 =>
    rw [h1] at g1
    cases g1
    rw [List.sum_cons, List.flatten_cons, List.length_append, ih g2]

theorem magic_num (c : Cfg) : rd c.en (magic c) = if c.is64 then 0xfeedfacf else 0xfeedface := by
  obtain ⟨a, e⟩ := c
  cases a <;> cases e <;> decide

theorem Written.commands' {b : Builder} {o : Order} {l : Layout} {out : List UInt8} (x : Written b o l out) :
    ∃ ks, mapR (fun x : Cmd × List Nat => cmdBytes b.cfg b o l x.1 x.2) (b.commands.zip l.link) = .ok ks ∧ Each (CmdOut b o l out) b.commands ks ∧ CommandsAll b.cfg (headerIn b.endian out) out ks ∧
      headerSize b.is64 ≤ out.length ∧ num b.endian out 0 4 = (if b.is64 then 0xfeedfacf else 0xfeedface) ∧
      b.cputype = (headerIn b.endian out).cputype ∧ b.cpusubtype = (headerIn b.endian out).cpusubtype ∧
      b.filetype = (headerIn b.endian out).filetype ∧ b.flags = (headerIn b.endian out).flags := by
  obtain ⟨ks, rest, h1, h2⟩ := x.em.head
  have h0 := h1
  rw [mapR_each] at h1
  have hout := x.lt
  have hflat : ks.flatten.length < 2 ^ 32 := by
    rw [h2, List.length_append, List.length_append] at hout; omega
  have hk : Each (CmdOut b o l out) b.commands ks := by
    refine each_zip_left x.laid.link h1 fun p hp z hz e => ?_
    have hlt : z.length < 2 ^ 32 := by have := length_mem_flatten hz; omega
    exact ⟨mem_zip_left hp, ⟨p.2, e⟩, hlt, x.cmd_ok hp e hlt⟩
  obtain ⟨sizes, s1, s2⟩ := x.laid.sizes
  have hsum := sizes_sum s1 (BuildR.each_imp hk fun _ _ _ e => e.2.2.2.1)
  rw [← s2] at hsum
  have hcmd : ∀ k ∈ ks, IsCommand b.endian k := by
    intro k hk'
    obtain ⟨_, _, e⟩ := BuildR.each_mem hk hk'
    exact e.2.2.2.2.1
  have hge := flatten_ge fun k hk => (hcmd k hk).1
  have hlen := BuildR.each_length hk
  have hhs : headerSize b.is64 = hdrSize b.cfg := rfl
  have hm : (magic b.cfg).length = 4 := MachoW.length_magic _
  -- the header
  have hn (i v : Nat) (hi : [(4, b.cputype), (4, b.cpusubtype), (4, b.filetype), (4, b.commands.length), (4, l.sizeofcmds), (4, b.flags)][i]? = some (4, v)) :
      num b.endian out (4 + (([(4, b.cputype), (4, b.cpusubtype), (4, b.filetype), (4, b.commands.length), (4, l.sizeofcmds), (4, b.flags)].take i).map (·.1)).sum) 4 =
        v % 256 ^ 4 := by
    rw [h2]
    unfold Mhdr.encode
    rw [List.append_assoc, List.append_assoc, List.append_assoc]
    have := num_right b.endian (magic b.cfg) (Obj.encode b.endian [(4, b.cputype), (4, b.cpusubtype), (4, b.filetype), (4, b.commands.length), (4, l.sizeofcmds),
      (4, b.flags)] ++ ((if b.is64 = true then [0, 0, 0, 0] else []) ++ (ks.flatten ++ rest)))
      (([(4, b.cputype), (4, b.cpusubtype), (4, b.filetype), (4, b.commands.length), (4, l.sizeofcmds), (4, b.flags)].take i).map (·.1)).sum 4
    rw [hm] at this
    rw [this]
    exact num_encode _ _ _ _ _ _ hi
  have hnc : (headerIn b.endian out).ncmds = b.commands.length := (hn 3 _ rfl).trans (mod_lt4 (by omega))
  have hsz : (headerIn b.endian out).sizeofcmds = ks.flatten.length := (hn 4 _ rfl).trans (by rw [mod_lt4 (by omega), hsum])
  have hol : out.length = hdrSize b.cfg + ks.flatten.length + rest.length := by
    rw [h2, List.length_append, List.length_append, MachoW.length_mhdr]
  refine ⟨ks, h0, hk, ⟨.inr (by rw [hsz, hhs]; omega), hcmd, hlen.trans hnc.symm, [], ?_⟩, ?_, ?_, ?_, ?_, ?_, ?_⟩
  · rw [hsz, List.append_nil, hhs, h2, List.append_assoc]
    have := slice_right (Mhdr.encode b.cfg ⟨b.cputype, b.cpusubtype, b.filetype, b.commands.length, l.sizeofcmds, b.flags⟩) (ks.flatten ++ rest) 0 ks.flatten.length
    rw [MachoW.length_mhdr, Nat.add_zero] at this
    refine this.trans ?_
    unfold slice
    rw [List.drop_zero, List.take_left]
  · rw [hhs]; omega
  · rw [← magic_num b.cfg]
    unfold num slice
    rw [h2]
    unfold Mhdr.encode
    rw [List.append_assoc, List.append_assoc, List.drop_zero, List.take_left' hm]
  · exact ((hn 0 _ rfl).trans (mod_lt4 x.sound.cputype)).symm
  · exact ((hn 1 _ rfl).trans (mod_lt4 x.sound.cpusubtype)).symm
  · exact ((hn 2 _ rfl).trans (mod_lt4 x.sound.filetype)).symm
  · exact ((hn 5 _ rfl).trans (mod_lt4 x.sound.flags)).symm

theorem Written.commands {b : Builder} {o : Order} {l : Layout} {out : List UInt8} (x : Written b o l out) :
    ∃ ks, Each (CmdOut b o l out) b.commands ks ∧ CommandsAll b.cfg (headerIn b.endian out) out ks ∧
      headerSize b.is64 ≤ out.length ∧ num b.endian out 0 4 = (if b.is64 then 0xfeedfacf else 0xfeedface) ∧
      b.cputype = (headerIn b.endian out).cputype ∧ b.cpusubtype = (headerIn b.endian out).cpusubtype ∧
      b.filetype = (headerIn b.endian out).filetype ∧ b.flags = (headerIn b.endian out).flags := by
  obtain ⟨ks, -, h⟩ := x.commands'
  exact ⟨ks, h⟩

/-! ## Filters -/

theorem each_filter {α β : Type} {P : α → β → Prop} {xs : List α} {ys : List β} {p : α → Bool} {q : β → Bool} (h : Each P xs ys)
    (hi : ∀ x y, P x y → p x = q y) : Each P (xs.filter p) (ys.filter q) := by
  induction h with
  | nil => exact .nil
  | cons h1 _ ih =>
    rw [List.filter_cons, List.filter_cons, hi _ _ h1]
    split
    · exact .cons h1 ih
    · exact ih

def isSegC : Cmd → Bool | .segment _ => true | _ => false
def isLibC : Cmd → Bool | .dylib _ => true | _ => false

theorem cmdSame_refl (k : Cmd) : CmdSame k k := by
  cases k with
  | segment => exact .segment
  | dylib => exact .dylib
  | _ => exact .other (by simp) (by simp)

theorem CmdOut.kind {b : Builder} {o : Order} {l : Layout} {out : List UInt8} {k : Cmd} {bs : List UInt8} (h : CmdOut b o l out k bs) :
    kindOf (number b.endian bs) = cmdKind k := command_kind (h.2.2.2.2.2 k (cmdSame_refl k))

theorem CmdOut.isSeg {b : Builder} {o : Order} {l : Layout} {out : List UInt8} {k : Cmd} {bs : List UInt8} (h : CmdOut b o l out k bs) :
    isSegC k = isSegment b.endian bs := by
  have hk := h.kind
  rw [Bool.eq_iff_iff]
  constructor
  · intro e
    cases k <;> simp [isSegC] at e
    have := h.2.2.2.2.2 _ (cmdSame_refl _)
    cases this with | segment e => exact e
  · intro e
    rw [kindSeg e] at hk
    cases k <;> simp [cmdKind] at hk
    rfl

theorem CmdOut.isSym {b : Builder} {o : Order} {l : Layout} {out : List UInt8} {k : Cmd} {bs : List UInt8} (h : CmdOut b o l out k bs) :
    decide (k = .symtab) = isSymtab b.endian bs := by
  have hk := h.kind
  rw [Bool.eq_iff_iff]
  constructor
  · intro e
    have e := of_decide_eq_true e
    subst e
    have := h.2.2.2.2.2 _ (cmdSame_refl _)
    cases this with | symtab e => exact e
  · intro e
    rw [isSymtab_of.1 e] at hk
    cases k <;> simp [cmdKind, kindOf] at hk
    simp

theorem CmdOut.isDys {b : Builder} {o : Order} {l : Layout} {out : List UInt8} {k : Cmd} {bs : List UInt8} (h : CmdOut b o l out k bs) :
    decide (k = .dysymtab) = isDysymtab b.endian bs := by
  have hk := h.kind
  rw [Bool.eq_iff_iff]
  constructor
  · intro e
    have e := of_decide_eq_true e
    subst e
    have := h.2.2.2.2.2 _ (cmdSame_refl _)
    cases this with | dysymtab e => exact e
  · intro e
    rw [isDysymtab_of.1 e] at hk
    cases k <;> simp [cmdKind, kindOf] at hk
    simp

theorem CmdOut.isLib {b : Builder} {o : Order} {l : Layout} {out : List UInt8} {k : Cmd} {bs : List UInt8} (h : CmdOut b o l out k bs) :
    isLibC k = isLibrary b.endian bs := by
  have hk := h.kind
  rw [Bool.eq_iff_iff]
  constructor
  · intro e
    cases k <;> simp [isLibC] at e
    have := h.2.2.2.2.2 _ (cmdSame_refl _)
    cases this with | dylib e => exact e
  · intro e
    rw [kind_lib (isLibrary_of.1 e)] at hk
    cases k <;> simp [cmdKind] at hk
    rfl

theorem segmentsOf_filter (ks : List Cmd) : ks.filter isSegC = (segmentsOf ks).map Cmd.segment := by
  unfold segmentsOf
  induction ks with
  | nil => rfl
  | cons k ks ih =>
    rw [List.filter_cons, List.filterMap_cons]
    cases k <;> simp [isSegC, ih]

theorem librariesOf_filter (ks : List Cmd) : ks.filter isLibC = (librariesOf ks).map Cmd.dylib := by
  unfold librariesOf
  induction ks with
  | nil => rfl
  | cons k ks ih =>
    rw [List.filter_cons, List.filterMap_cons]
    cases k <;> simp [isLibC, ih]

end Obj.MachoB
