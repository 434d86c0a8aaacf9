/-
C52 (expand_section) and C53 (realign_file).
-/
import Verif.Props.Reloc
import Verif.Props.Utils
import Verif.Props.Edit

namespace PE

/-! ### C52: expanding a section -/

theorem set_of_getElem? {α : Type} {l : List α} {i : Nat} {x : α} (h : l[i]? = some x) : l.set i x = l := by
  obtain ⟨hi, rfl⟩ := List.getElem?_eq_some_iff.mp h
  exact List.set_getElem_self hi

theorem dataLenSec_raw {p : Image} {s : Sec} {rva : Nat} (ha : Pow2 p.nt.secAlign) (hf : s.Fits p.nt.secAlign)
    (hcov : s.Covers p.nt.secAlign rva) (hd : s.data.length ≤ s.span p.nt.secAlign)
    (h31 : s.span p.nt.secAlign < 2 ^ 31) :
    p.dataLenSec s rva .raw = .ok (s.data.length - (rva - s.va)) := by
  have hc : s.containsRva p.nt.secAlign rva = true := by
    rw [Sec.containsRva_iff ha hf]; exact hcov
  have hfin := hf.fin
  obtain ⟨h1, h2⟩ := hcov
  unfold Image.dataLenSec
  rw [if_pos hc]
  dsimp only
  rw [show s.viewLen .raw p.nt.secAlign = s.data.length from rfl]
  refine congrArg Except.ok ?_
  have e : sub32 (w32 (w32 s.data.length + s.va)) rva =
      if rva - s.va ≤ s.data.length then s.data.length - (rva - s.va)
      else 4294967296 - (rva - s.va - s.data.length) := by
    simp only [w32, sub32]
    by_cases hc : rva - s.va ≤ s.data.length
    · rw [if_pos hc]; omega
    · rw [if_neg hc]; omega
  rw [e]
  by_cases hc : rva - s.va ≤ s.data.length
  · rw [if_pos hc, if_neg (by omega)]
  · rw [if_neg hc, if_pos (by omega)]; omega

/-- C52 (raw data): for sections below 2 GiB, `expand_section` makes sure that the raw data of the last section reach
    at least up to `rva + size`: it returns whether they had to grow, in which case zero bytes are appended. All the
    old bytes stay, and so does everything else in the image.
    Missing: sections of 2 GiB and more, see `C52_expand_shrinks`. -/
theorem C52_expand_raw_partial (p : Image) (i rva size : Nat) (s : Sec) (hh : Host p i s) (hlast : i + 1 = p.secs.length)
    (hcov : s.Covers p.nt.secAlign rva) (hsz : 0 < size) (h31 : s.span p.nt.secAlign < 2 ^ 31)
    (hroom : HostRoom p i s (rva - s.va + size)) :
    ∃ q s', p.expandSection i rva size .raw = .ok (q, decide (s.data.length < rva - s.va + size)) ∧
      q.secs[i]? = some s' ∧ s'.va = s.va ∧ s'.data = s.data ++ zeros (rva - s.va + size - s.data.length) ∧
      s'.data.length ≤ s'.span p.nt.secAlign ∧ ValidTable q ∧ q = { p with secs := p.secs.set i s' } := by
  have hv := hh.valid
  have hm := List.mem_of_getElem? hh.sec
  have hf := hv.fits s hm
  have hds : s.data.length ≤ s.span p.nt.secAlign := by have := hh.data; have := hh.raw; omega
  have hlen := dataLenSec_raw hv.sa hf hcov hds h31
  have hl := hroom.lt hh
  have hi : i < p.secs.length := by omega
  unfold Image.expandSection
  rw [hh.sec]
  dsimp only
  rw [if_neg (by omega), hlen, ok_bind]
  by_cases hc : s.data.length < rva - s.va + size
  · rw [if_pos (by omega), sub32_of_le hcov.1 (by omega), w32, Nat.mod_eq_of_lt (by omega)]
    have hrl := resize_length s.data (rva - s.va + size)
    have hne : resize s.data (rva - s.va + size) ≠ [] := by
      intro h0; rw [h0] at hrl; simp at hrl; omega
    have hroom' : HostRoom p i s (resize s.data (rva - s.va + size)).length := by rw [hrl]; exact hroom
    have hge : s.data.length ≤ (resize s.data (rva - s.va + size)).length := by omega
    have hr := recalc_host false hh hne hge hroom'
    obtain ⟨f1, -, f3, f4, f5, -, -⟩ := hosted_facts false hh hne hge hroom'
    have hval := hosted_valid false hh hne hge hroom'
    have hn3 := (hh.need_eq hge hroom').2.2
    have hdat : (hosted p i s (resize s.data (rva - s.va + size)) false).data = resize s.data (rva - s.va + size) := by
      unfold hosted; simp [Sec.prepared]
    refine ⟨{ p with secs := p.secs.set i (hosted p i s (resize s.data (rva - s.va + size)) false) },
      hosted p i s (resize s.data (rva - s.va + size)) false, ?_, by simp [hi], f1, ?_, ?_, hval, rfl⟩
    · rw [hr, ok_bind]
      simp [hc]
    · rw [hdat, resize_of_le (by omega)]
    · rw [f4, hdat]; exact hn3
  · rw [if_neg (by omega)]
    refine ⟨p, s, by simp [hc], hh.sec, rfl, ?_, hds, hv, ?_⟩
    · rw [show rva - s.va + size - s.data.length = 0 by omega]; simp [zeros]
    · rw [set_of_getElem? hh.sec]

/-- C52 (virtual size): the same for the virtual size, which grows exactly to `rva + size` if it is too small;
    `SizeOfImage` follows. -/
theorem C52_expand_virtual_partial (p : Image) (i rva size : Nat) (s : Sec) (hv : ValidTable p)
    (hs : p.secs[i]? = some s) (hlast : i + 1 = p.secs.length) (hcov : s.Covers p.nt.secAlign rva) (hsz : 0 < size)
    (h31 : s.span p.nt.secAlign < 2 ^ 31) (hroom : s.va + ceilTo (max (rva - s.va + size) s.rawSize) p.nt.secAlign < 2 ^ 32) :
    ∃ q s', p.expandSection i rva size .virt = .ok (q, decide (s.va + s.span p.nt.secAlign < rva + size)) ∧
      q.secs = p.secs.set i s' ∧ q.hdrData = p.hdrData ∧
      { q.nt with sizeImage := p.nt.sizeImage } = p.nt ∧
      s' = { s with vsize := s'.vsize } ∧ rva + size ≤ s'.va + s'.span p.nt.secAlign ∧
      (s.va + s.span p.nt.secAlign < rva + size → s'.vsize = rva - s.va + size ∧ SizeOk q) ∧
      (rva + size ≤ s.va + s.span p.nt.secAlign → q = p) := by
  have hm := List.mem_of_getElem? hs
  have hf := hv.fits s hm
  have hfin := hf.fin
  have hmx := ceilTo_max (x := rva - s.va + size) (y := s.rawSize) hv.sa.pos
  have hcg := ceilTo_ge (x := rva - s.va + size) hv.sa.pos
  obtain ⟨hc1, hc2⟩ := hcov
  have hc : s.containsRva p.nt.secAlign rva = true := by
    rw [Sec.containsRva_iff hv.sa hf]; exact ⟨hc1, hc2⟩
  have hlen : p.dataLenSec s rva .virt = .ok (s.va + s.span p.nt.secAlign - rva) := by
    unfold Image.dataLenSec
    rw [if_pos hc]
    dsimp only
    rw [show s.viewLen .virt p.nt.secAlign = s.alignedVS p.nt.secAlign from rfl, Sec.alignedVS_eq hv.sa hf]
    refine congrArg Except.ok ?_
    have e : sub32 (w32 (w32 (s.span p.nt.secAlign) + s.va)) rva = s.va + s.span p.nt.secAlign - rva := by
      simp only [w32, sub32]; omega
    rw [e, if_neg (by omega)]
  unfold Image.expandSection
  rw [hs]
  dsimp only
  rw [if_neg (by omega), hlen, ok_bind]
  by_cases hcc : s.va + s.span p.nt.secAlign < rva + size
  · rw [if_pos (by omega), sub32_of_le hc1 (by omega), w32, Nat.mod_eq_of_lt (by omega)]
    have hset : ∃ q, p.setSectionVirtualSize i (rva - s.va + size) = .ok q ∧
        q = ({ p with secs := p.secs.set i { s with vsize := rva - s.va + size } } : Image).updateImageSize := by
      unfold Image.setSectionVirtualSize
      rw [hs]
      dsimp only
      rw [if_neg (by omega), if_neg (by omega)]
      exact ⟨_, rfl, rfl⟩
    obtain ⟨q, hq, hqe⟩ := hset
    have h11 := C11_set_section_virtual_size p q i _ s hv hs (by omega) hroom hq
    have hss : q.secs = p.secs.set i { s with vsize := rva - s.va + size } := by
      rw [hqe]; unfold Image.updateImageSize; split <;> rfl
    have hnt : { q.nt with sizeImage := p.nt.sizeImage } = p.nt := by
      rw [hqe]; unfold Image.updateImageSize; split <;> rfl
    have hhd : q.hdrData = p.hdrData := by
      rw [hqe]; unfold Image.updateImageSize; split <;> rfl
    refine ⟨q, { s with vsize := rva - s.va + size }, ?_, hss, hhd, hnt, rfl, ?_, fun _ => ⟨rfl, h11.2.1⟩, fun h => ?_⟩
    · rw [hq, ok_bind]; simp [hcc]
    · show rva + size ≤ s.va + ceilTo (if rva - s.va + size = 0 then s.rawSize else rva - s.va + size) p.nt.secAlign
      rw [if_neg (by omega)]; omega
    · omega
  · rw [if_neg (by omega)]
    refine ⟨p, s, by simp [hcc], ?_, rfl, rfl, rfl, by omega, fun h => absurd h hcc, fun _ => rfl⟩
    rw [set_of_getElem? hs]

/-- What is missing in C52: lengths are computed in `int32_t`, so a section of 2 GiB counts as empty, and
    "expanding" it makes it smaller. -/
theorem C52_expand_shrinks : ∃ (p q : Image) (s s' : Sec), p.secs[0]? = some s ∧ s.Covers p.nt.secAlign 0x1000 ∧
    0x1000 + 16 ≤ s.va + s.span p.nt.secAlign ∧ p.expandSection 0 0x1000 16 .virt = .ok (q, true) ∧
    q.secs[0]? = some s' ∧ s'.vsize = 16 ∧ s.vsize = 0x80000000 := by
  refine ⟨
    { kind := .pe32, dos := [], lfanew := 0, nt := { secAlign := 0x1000 },
      secs := [{ va := 0x1000, vsize := 0x80000000 }] },
    { kind := .pe32, dos := [], lfanew := 0, nt := { secAlign := 0x1000, sizeImage := 0x2000 },
      secs := [{ va := 0x1000, vsize := 16 }] }, _, _, rfl, by decide, by decide, by decide, rfl, rfl, rfl⟩

/-- C52 applies to the last section of the demo image. -/
example : ∃ q s', demoImage.expandSection 1 0x2100 0x200 .raw = .ok (q, true) ∧ q.secs[1]? = some s' ∧
    s'.data.length = 768 := by
  obtain ⟨q, s', h1, h2, -, h3, -⟩ := C52_expand_raw_partial demoImage 1 0x2100 0x200 _ demo_host_last rfl (by decide)
    (by decide) (by decide) (by decide)
  rw [decide_eq_true (by decide +kernel)] at h1
  refine ⟨q, s', h1, h2, ?_⟩
  have : (demoImage.secs[1]'(by decide)).data.length = 16 := by decide
  rw [h3, List.length_append, zeros_length, this]; decide

example : ∃ q s', demoImage.expandSection 1 0x2100 0x2000 .virt = .ok (q, true) ∧ q.secs = demoImage.secs.set 1 s' ∧
    s'.vsize = 0x2100 := by
  obtain ⟨q, s', h1, h2, -, -, -, -, h3, -⟩ := C52_expand_virtual_partial demoImage 1 0x2100 0x2000 _ demo_valid rfl rfl
    (by decide) (by decide) (by decide) (by decide)
  exact ⟨q, s', h1, h2, (h3 (by decide)).1⟩

/-! ### C53: realigning the file -/

/-- The section as it is after realigning. -/
def Sec.realigned (fa : Nat) (last : Bool) (s : Sec) : Sec :=
  if last then { s with data := stripNullbytes s.data, rawSize := w32 (stripNullbytes s.data).length }
  else { s with data := resize s.data (s.alignedRS fa), rawSize := s.alignedRS fa }

theorem realignFrom_spec (n : Nat) (p : Image) (i : Nat) (h : i + n = p.secs.length) :
    ∃ q, p.realignFrom i n = .ok q ∧ q = { p with secs := q.secs } ∧ q.secs.length = p.secs.length ∧
      ∀ j, q.secs[j]? = (p.secs[j]?).map (fun s =>
        if i ≤ j then s.realigned p.nt.fileAlign (decide (j + 1 = p.secs.length)) else s) := by
  induction n generalizing p i with
  | zero =>
    refine ⟨p, rfl, rfl, rfl, fun j => ?_⟩
    by_cases hj : i ≤ j
    · rw [List.getElem?_eq_none (by omega)]; rfl
    · simp [hj]
  | succ n ih =>
    have hi : i < p.secs.length := by omega
    have hs : p.secs[i]? = some p.secs[i] := List.getElem?_eq_getElem hi
    have hone : p.realignSection i = .ok { p with
        secs := p.secs.set i (p.secs[i].realigned p.nt.fileAlign (decide (i + 1 = p.secs.length))) } := by
      unfold Image.realignSection
      rw [hs]
      dsimp only
      split
      · next hc => simp [Sec.realigned, hc]
      · next hc => simp [Sec.realigned, hc]
    rw [Image.realignFrom, hone, ok_bind]
    obtain ⟨q, h1, h2, h3, h4⟩ := ih { p with
        secs := p.secs.set i (p.secs[i].realigned p.nt.fileAlign (decide (i + 1 = p.secs.length))) } (i + 1) (by simp; omega)
    refine ⟨q, h1, ?_, by rw [h3]; simp, fun j => ?_⟩
    · rw [h2]
    · rw [h4 j]
      simp only [List.length_set]
      by_cases hj : j = i
      · subst hj
        rw [List.getElem?_set_self hi, hs]
        simp only [Option.map_some]
        rw [if_neg (by omega), if_pos (by omega)]
      · rw [List.getElem?_set_ne (Ne.symm hj)]
        congr 1
        funext s
        by_cases hij : i ≤ j
        · rw [if_pos hij, if_pos (by omega)]
        · rw [if_neg hij, if_neg (by omega)]

theorem strip_append_zeros (d : Bytes) : ∃ z, d = stripNullbytes d ++ zeros z := by
  unfold stripNullbytes
  have key : ∀ l : Bytes, ∃ z, l = zeros z ++ l.dropWhile (· == 0) := by
    intro l
    induction l with
    | nil => exact ⟨0, rfl⟩
    | cons x l ih =>
      by_cases hx : x = 0
      · obtain ⟨z, hz⟩ := ih
        refine ⟨z + 1, ?_⟩
        subst hx
        rw [List.dropWhile_cons_of_pos (by simp)]
        show _ = 0 :: (zeros z ++ _)
        rw [← hz]
      · exact ⟨0, by rw [List.dropWhile_cons_of_neg (by simpa using hx)]; rfl⟩
  obtain ⟨z, hz⟩ := key d.reverse
  refine ⟨z, ?_⟩
  have := congrArg List.reverse hz
  rw [List.reverse_reverse, List.reverse_append] at this
  conv => lhs; rw [this]
  simp [zeros]

/-- C53: `realign_file(a)` with an acceptable alignment changes no byte of the memory contents of any section and no
    header field but the file alignment, and afterwards the raw sizes are the lengths of the raw data; all but the last
    one are multiples of `a`, and the last section has no null bytes at its end. -/
theorem C53_realign_file (p : Image) (a : Nat) (ha : 512 ≤ a) (hp : Pow2 a) (hle : a ≤ p.nt.secAlign)
    (hsec : ∀ s ∈ p.secs, s.vsize ≠ 0 ∧ s.rawSize < 2 ^ 32 ∧ s.data.length ≤ ceilTo s.rawSize a ∧
      ceilTo s.rawSize a ≤ s.span p.nt.secAlign ∧ s.span p.nt.secAlign < 2 ^ 32) :
    ∃ q, p.realignFile a = .ok q ∧ q = { p with nt := { p.nt with fileAlign := a }, secs := q.secs } ∧
      q.secs.length = p.secs.length ∧
      ∀ (i : Nat) (s : Sec), p.secs[i]? = some s → ∃ t, q.secs[i]? = some t ∧
        t = { s with data := t.data, rawSize := t.data.length } ∧
        t.memory p.nt.secAlign = s.memory p.nt.secAlign ∧
        (i + 1 ≠ p.secs.length → t.data.length = ceilTo s.rawSize a) ∧
        (i + 1 = p.secs.length → t.data.getLast? ≠ some 0) := by
  have hset := (C49_set_file_alignment p a hp.lt).1 ⟨ha, ⟨hp.choose, hp.choose_spec.2⟩, hle⟩
  obtain ⟨q, h1, h2, h3, h4⟩ := realignFrom_spec p.secs.length { p with nt := { p.nt with fileAlign := a } } 0
    (Nat.zero_add _)
  refine ⟨q, ?_, h2, h3, ?_⟩
  · unfold Image.realignFile
    rw [hset, ok_bind]; exact h1
  · intro i s hs
    obtain ⟨hv0, hr32, hd, hr, h32⟩ := hsec s (List.mem_of_getElem? hs)
    have h4i := h4 i
    simp only [hs, Option.map_some, Nat.zero_le, if_true] at h4i
    have hrs : s.alignedRS a = ceilTo s.rawSize a := by
      unfold Sec.alignedRS
      split
      · exact alignUp_of_le hp hr32 (by omega)
      · next h0 => have h0 : s.rawSize = 0 := by omega
                   rw [h0]; simp [ceilTo]
    refine ⟨_, h4i, ?_⟩
    by_cases hl : i + 1 = p.secs.length
    · obtain ⟨z, hz⟩ := strip_append_zeros s.data
      have hzl := congrArg List.length hz
      rw [List.length_append, zeros_length] at hzl
      have hw : w32 (stripNullbytes s.data).length = (stripNullbytes s.data).length := by
        rw [w32, Nat.mod_eq_of_lt (by omega)]
      simp only [hl, decide_true, Sec.realigned, if_true]
      refine ⟨by rw [hw], ?_, fun h => absurd rfl h, fun _ => ?_⟩
      · unfold Sec.memory
        have hsp' (x y) : Sec.span { s with data := x, rawSize := y } p.nt.secAlign = ceilTo s.vsize p.nt.secAlign := by
          unfold Sec.span; dsimp only; rw [if_neg hv0]
        have hsp : s.span p.nt.secAlign = ceilTo s.vsize p.nt.secAlign := by unfold Sec.span; rw [if_neg hv0]
        rw [hsp] at hr
        rw [hsp, hsp']
        dsimp only
        generalize ceilTo s.vsize p.nt.secAlign = c at *
        conv => rhs; rw [hz]
        rw [List.append_assoc]
        congr 1
        show _ = List.replicate z 0 ++ List.replicate _ 0
        rw [List.replicate_append_replicate]
        congr 1
        rw [List.length_append, zeros_length]
        omega
      · unfold stripNullbytes
        rw [List.getLast?_reverse]
        intro h0
        have := List.head?_dropWhile_not (· == (0 : UInt8)) s.data.reverse
        rw [h0] at this
        simp at this
    · simp only [hl, decide_false, Sec.realigned, Bool.false_eq_true, if_false, hrs]
      refine ⟨by simp, ?_, fun _ => by simp, fun h => absurd h (by simp)⟩
      unfold Sec.memory
      have hsp' (x y) : Sec.span { s with data := x, rawSize := y } p.nt.secAlign = ceilTo s.vsize p.nt.secAlign := by
        unfold Sec.span; dsimp only; rw [if_neg hv0]
      have hsp : s.span p.nt.secAlign = ceilTo s.vsize p.nt.secAlign := by unfold Sec.span; rw [if_neg hv0]
      rw [hsp] at hr
      rw [hsp, hsp']
      dsimp only
      generalize ceilTo s.vsize p.nt.secAlign = c at *
      rw [resize_length, resize_of_le hd, List.append_assoc]
      congr 1
      show List.replicate _ 0 ++ List.replicate _ 0 = _
      rw [List.replicate_append_replicate]
      congr 1
      omega

/-- The demo image can be realigned to 4096 (its first section then has 4096 bytes of raw data). -/
example : ∃ q t, demoImage.realignFile 0x1000 = .ok q ∧ q.secs[0]? = some t ∧ t.data.length = 0x1000 ∧
    t.memory 0x1000 = (demoImage.secs[0]'(by decide)).memory 0x1000 := by
  obtain ⟨q, h1, -, -, h2⟩ := C53_realign_file demoImage 0x1000 (by decide) pow2_4096 (by decide) (by decide)
  obtain ⟨t, h3, -, h4, h5, -⟩ := h2 0 _ rfl
  exact ⟨q, t, h1, h3, h5 (by decide), h4⟩

end PE
