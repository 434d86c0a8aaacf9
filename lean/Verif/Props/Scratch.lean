/-
C74: images built from scratch.
-/
import Verif.Props.Edit
import Verif.Props.Factory
namespace PE

/-- What a caller may pass to `add_section` for a file that is to be saved: an 8 byte name, data of a multiple of
    512 bytes (shorter data are padded by the caller, see `C18_added_section_overread`), sizes up to 2 GiB, header
    fields in the ranges of their C++ types, and no raw pointer. -/
structure NewSec (sa : Nat) (s : Sec) : Prop where
  name : s.name.length = 8
  whole : 512 ∣ s.data.length
  some : s.data ≠ [] ∨ s.vsize ≠ 0
  data : s.data.length ≤ 2 ^ 31
  vsize : ceilTo s.vsize sa ≤ 2 ^ 31
  va : s.va < 2 ^ 32
  rawPtr : s.rawPtr = 0
  relPtr : s.relPtr < 2 ^ 32
  linePtr : s.linePtr < 2 ^ 32
  nReloc : s.nReloc < 2 ^ 16
  nLine : s.nLine < 2 ^ 16
  chars : s.chars < 2 ^ 32

/-- Where the first section goes: at the address it asks for, otherwise behind the 1024 bytes of headers of a new
    image; rounded up. -/
def firstVa (sa : Nat) (new : List Sec) : Nat :=
  match new with
  | s :: _ => ceilTo (if s.va = 0 then 1024 else s.va) sa
  | [] => 0

/-- A section at address `v`: its data as raw size; at least its data (and what it asked for, rounded up) as virtual
    size. -/
def Sec.laid (s : Sec) (sa v : Nat) : Sec :=
  { s with va := v, rawSize := s.data.length, vsize := if s.vsize = 0 then s.data.length else max s.data.length (ceilTo s.vsize sa) }

/-- The sections one after the other from `start` on. -/
def placed (sa : Nat) : Nat → List Sec → List Sec
  | _, [] => []
  | start, s :: l => s.laid sa start :: placed sa (start + s.need sa) l

/-- A section in a table made by `add_section` from such sections. -/
structure DoneSec (sa : Nat) (s : Sec) : Prop where
  name : s.name.length = 8
  whole : 512 ∣ s.data.length
  raw : s.rawSize = s.data.length
  data : s.data.length ≤ 2 ^ 31
  vpos : s.vsize ≠ 0
  vsize : s.vsize ≤ 2 ^ 31
  room : s.data.length ≤ s.vsize
  va : s.va < 2 ^ 32
  rawPtr : s.rawPtr = 0
  relPtr : s.relPtr < 2 ^ 32
  linePtr : s.linePtr < 2 ^ 32
  nReloc : s.nReloc < 2 ^ 16
  nLine : s.nLine < 2 ^ 16
  chars : s.chars < 2 ^ 32

/-- The image `c` with sections. -/
def Image.grown (c : Image) (secs : List Sec) (n : Nat) : Image :=
  { c with secs := secs, nt := { c.nt with numSections := secs.length, sizeImage := n } }

/-- An image under construction. -/
structure Built (c p : Image) : Prop where
  rest : ∃ n, n < 2 ^ 32 ∧ p = c.grown p.secs n
  table : ValidTable p
  secs : ∀ s ∈ p.secs, DoneSec c.nt.secAlign s

theorem Built.nt {c p : Image} (h : Built c p) : ∃ n, n < 2 ^ 32 ∧
    p.nt = { c.nt with numSections := p.secs.length, sizeImage := n } := by
  obtain ⟨n, hn, e⟩ := h.rest
  exact ⟨n, hn, congrArg Image.nt e⟩

theorem Built.sa {c p : Image} (h : Built c p) : p.nt.secAlign = c.nt.secAlign := by
  obtain ⟨n, -, e⟩ := h.nt; rw [e]
theorem Built.fa {c p : Image} (h : Built c p) : p.nt.fileAlign = c.nt.fileAlign := by
  obtain ⟨n, -, e⟩ := h.nt; rw [e]
theorem Built.sh {c p : Image} (h : Built c p) : p.nt.sizeHeaders = c.nt.sizeHeaders := by
  obtain ⟨n, -, e⟩ := h.nt; rw [e]

theorem adjustLast_done {c p : Image} (h : Built c p) (hf : c.nt.fileAlign = 512) (auto : Bool) :
    adjustLast p auto = p.secs := by
  unfold adjustLast
  cases hl : p.secs.getLast? with
  | none => rfl
  | some l =>
    dsimp only
    split
    · have hd := h.secs l (List.mem_of_getLast? hl)
      have hw : w32 (alignUp64 l.data.length p.nt.fileAlign) = l.rawSize := by
        have := hd.data
        rw [h.fa, hf, alignUp64_eq ⟨9, by decide, rfl⟩ (by omega), ceilTo_of_dvd hd.whole, hd.raw]
        exact Nat.mod_eq_of_lt (by omega)
      rw [hw]
      obtain ⟨ys, hy⟩ := List.getLast?_eq_some_iff.mp hl
      rw [hy, List.dropLast_concat]
    · rfl

theorem NewSec.done {sa v : Nat} {s : Sec} (h : NewSec sa s) (hsa : Pow2 sa) (hv : v < 2 ^ 32) :
    DoneSec sa (s.laid sa v) := by
  have hc := ceilTo_ge (x := s.vsize) hsa.pos
  have hd := h.data
  have hv' := h.vsize
  refine { name := h.name, whole := h.whole, raw := rfl, data := h.data, va := hv, rawPtr := h.rawPtr, relPtr := h.relPtr,
           linePtr := h.linePtr, nReloc := h.nReloc, nLine := h.nLine, chars := h.chars, vpos := ?_, vsize := ?_, room := ?_ }
  · show (if s.vsize = 0 then _ else _) ≠ 0
    split
    · next hz =>
      have : s.data ≠ [] := by rcases h.some with hh | hh; exact hh; exact absurd hz hh
      have := List.length_pos_iff.mpr this
      omega
    · omega
  · show (if s.vsize = 0 then _ else _) ≤ _
    split <;> omega
  · show s.data.length ≤ (if s.vsize = 0 then _ else _)
    split <;> omega

theorem addAll_built {c : Image} (hf : c.nt.fileAlign = 512) (auto : Bool) (new : List Sec) (hn : ∀ s ∈ new, NewSec c.nt.secAlign s)
    (p : Image) (hb : Built c p) (hc : p.secs.length + new.length ≤ 96) (start : Nat)
    (hs : ∀ s, new.head? = some s → nextVA p s = start) (room : start + (new.map (Sec.need · c.nt.secAlign)).sum < 2 ^ 32) :
    ∃ p', p.addAll auto new = .ok p' ∧ Built c p' ∧ p'.secs = p.secs ++ placed c.nt.secAlign start new := by
  induction new generalizing p start with
  | nil => exact ⟨p, rfl, hb, by simp [placed]⟩
  | cons s l ih =>
    have hns := hn s (by simp)
    have hsa : Pow2 c.nt.secAlign := hb.sa ▸ hb.table.sa
    have hst := hs s rfl
    simp only [List.map_cons, List.sum_cons] at room
    have hce := ceilTo_ge (x := s.vsize) hsa.pos
    have hvs : s.vsize < 2 ^ 32 := by have := hns.vsize; omega
    have hroom : nextVA p s + s.need p.nt.secAlign < 2 ^ 32 := by rw [hst, hb.sa]; omega
    simp only [List.length_cons] at hc
    have hprep : ∀ v, { s.prepared 512 c.nt.secAlign with va := v } = s.laid c.nt.secAlign v := by
      intro v; unfold Sec.prepared; rw [ceilTo_of_dvd hns.whole]; rfl
    have hadd : ∃ p', p.addSection s auto = .ok p' ∧ p' = { p with
        secs := p.secs ++ [s.laid c.nt.secAlign start]
        nt := { p.nt with numSections := p.secs.length + 1,
                          sizeImage := w32 (p.nt.sizeImage + s.need p.nt.secAlign) } } := by
      refine ⟨_, ?_, rfl⟩
      rw [addSection_eq hb.table hvs hns.va hroom, if_neg (by omega),
        if_neg (by rintro ⟨h1, h2⟩; rcases hns.some with h | h; exact h h1; exact h h2), adjustLast_done hb hf, hb.fa, hf, hst,
        hb.sa, hprep]
    obtain ⟨p', h1, h2⟩ := hadd
    have htab := addSection_valid hb.table hvs hns.va (by rw [hns.rawPtr]; decide) hroom auto h1
    have hsecs : p'.secs = p.secs ++ [s.laid c.nt.secAlign start] := by rw [h2]
    have hb' : Built c p' := by
      refine ⟨?_, htab, ?_⟩
      · obtain ⟨n, hn, e⟩ := hb.rest
        refine ⟨w32 (p.nt.sizeImage + s.need p.nt.secAlign), Nat.mod_lt _ (by decide), ?_⟩
        have : p' = p.grown p'.secs (w32 (p.nt.sizeImage + s.need p.nt.secAlign)) := by
          unfold Image.grown
          rw [hsecs, List.length_append]; exact h2
        refine this.trans ?_
        generalize w32 (p.nt.sizeImage + s.need p.nt.secAlign) = m
        generalize p'.secs = ss
        rw [e]; rfl
      · intro t ht
        rw [hsecs] at ht
        rcases List.mem_append.mp ht with ht | ht
        · exact hb.secs t ht
        · rw [List.mem_singleton] at ht
          subst ht
          exact hns.done hsa (by omega)
    have hnext : ∀ t, l.head? = some t → nextVA p' t = start + s.need c.nt.secAlign := by
      intro t _
      unfold nextVA
      rw [hsecs, List.getLast?_append]
      simp only [List.getLast?_singleton, Option.some_or, hb'.sa]
      have hsp := Sec.prepared_span (s := s) (fa := 512) (sa := c.nt.secAlign) ⟨9, by decide, rfl⟩ hsa
        (by rw [← hf, ← hb.fa, ← hb.sa]; exact hb.table.le)
      rw [← hsp, ← hprep]; rfl
    obtain ⟨p'', k1, k2, k3⟩ := ih (fun t ht => hn t (by simp [ht])) p' hb' (by rw [hsecs]; simp; omega) _ hnext (by omega)
    refine ⟨p'', ?_, k2, ?_⟩
    · show (p.addSection s auto >>= fun p => p.addAll auto l) = _
      rw [h1]; exact k1
    · rw [k3, hsecs, List.append_assoc]; rfl

/-- Bytes of headers and section table of a new image with `n` sections, rounded up to 512. -/
def newHeaders (k : Kind) (strip : Bool) (n : Nat) : Nat :=
  ceilTo ((if strip then 16 else 64) + (match k with | .pe32 => 248 | .pe64 => 264) + 40 * n) 512

theorem create_fields (k : Kind) (sa : Nat) (dll : Bool) (sub : Nat) :
    (createImage k sa dll sub).nt = { createNt k sa sub with
      chars := (createImage k sa dll sub).nt.chars, majorSubsys := 5, minorSubsys := 1, majorOs := 5, minorOs := 1 } ∧
    (createImage k sa dll sub).nt.chars < 65536 := by
  have h : (createImage k sa dll sub).nt.chars = (createImage k 0 dll 0).nt.chars := by cases k <;> cases dll <;> rfl
  refine ⟨by cases k <;> cases dll <;> rfl, ?_⟩
  rw [h]
  cases k <;> cases dll <;> decide

theorem create_built (k : Kind) (sa : Nat) (dll : Bool) (sub : Nat) (hsa : Pow2 sa) (h5 : 512 ≤ sa) :
    Built (createImage k sa dll sub) (createImage k sa dll sub) := by
  obtain ⟨e, -⟩ := create_fields k sa dll sub
  have e4 : (createImage k sa dll sub).secs = [] := rfl
  have e3 : (createImage k sa dll sub).nt.numSections = 0 := by rw [e]; rfl
  have e5 : (createImage k sa dll sub).nt.sizeImage = 0 := by rw [e]; rfl
  have e1 : (createImage k sa dll sub).nt.secAlign = sa := by rw [e]; rfl
  have e2 : (createImage k sa dll sub).nt.fileAlign = 512 := by rw [e]; rfl
  refine ⟨⟨0, by decide, ?_⟩, ?_, by simp [e4]⟩
  · unfold Image.grown
    cases k <;> cases dll <;> rfl
  · exact { sa := by rw [e1]; exact hsa, fa := by rw [e2]; exact pow2_512, le := by rw [e1, e2]; exact h5,
            fits := by simp [e4], aligned := by simp [e4],
            nonempty := by simp [e4], contig := by rw [e4]; trivial, num := by rw [e3, e4]; rfl,
            count := by rw [e4]; decide, pages := by simp [e4] }

theorem built_noBound {k : Kind} {sa : Nat} {dll : Bool} {sub : Nat} {p : Image} (h : Built (createImage k sa dll sub) p) :
    p.nt.dirs = List.replicate 16 (0, 0) ∧ p.nt.numRva = 16 ∧ p.boundDir = (0, 0) ∧ ¬ p.HasBound ∧ p.kind = k ∧ p.stub = [] ∧
    p.dos = createDos ∧ p.nt.fileAlign = 512 ∧ p.nt.secAlign = sa ∧ p.nt.sizeHeaders = 1024 := by
  obtain ⟨e0, -⟩ := create_fields k sa dll sub
  obtain ⟨n, -, e⟩ := h.rest
  have hd : p.nt.dirs = List.replicate 16 (0, 0) := by rw [e]; show (createImage k sa dll sub).nt.dirs = _; rw [e0]; rfl
  have hb : p.boundDir = (0, 0) := by unfold Image.boundDir; rw [hd]; rfl
  refine ⟨hd, ?_, hb, fun hh => hh.2 (by rw [hb]), ?_, ?_, ?_, ?_, ?_, ?_⟩
  · rw [e]; show (createImage k sa dll sub).nt.numRva = _; rw [e0]; rfl
  · rw [e]; rfl
  · rw [e]; rfl
  · rw [e]; rfl
  · rw [h.fa, e0]; rfl
  · rw [h.sa, e0]; rfl
  · rw [h.sh, e0]; rfl

theorem built_dataStart {k : Kind} {sa : Nat} {dll : Bool} {sub : Nat} {p : Image} (h : Built (createImage k sa dll sub) p)
    (strip save : Bool) : p.dataStart strip save = newHeaders k strip p.secs.length := by
  obtain ⟨-, h2, h3, h4, h5, h6, -, h8, -⟩ := built_noBound h
  have hb : p.boundSize save = 0 := by unfold Image.boundSize; rw [if_neg (fun hh => h4 hh.2)]
  unfold Image.dataStart newHeaders Image.tableEnd Image.ntStart
  rw [hb, h2, h6, h8, h5]
  cases k <;> cases strip <;> rfl

theorem rawOffset_done {sa : Nat} {l : List Sec} (h : ∀ s ∈ l, DoneSec sa s) (start : Nat) :
    rawOffset 512 start l l.length = start + (l.map (fun s => s.data.length)).sum := by
  unfold rawOffset
  rw [List.take_length]
  have : l.map (fun s => ceilTo s.rawSize 512) = l.map (fun s => s.data.length) :=
    List.map_congr_left (fun s hs => by rw [(h s hs).raw, ceilTo_of_dvd (h s hs).whole])
  rw [this]

theorem placed_maps (sa start : Nat) (l : List Sec) :
    (placed sa start l).length = l.length ∧ (placed sa start l).map (fun s => s.data.length) = l.map (fun s => s.data.length) ∧
    (placed sa start l).head?.map Sec.va = l.head?.map (fun _ => start) := by
  induction l generalizing start with
  | nil => exact ⟨rfl, rfl, rfl⟩
  | cons s l ih =>
    obtain ⟨h1, h2, -⟩ := ih (start + s.need sa)
    exact ⟨by simp [placed, h1], by simp [placed, h2]; rfl, rfl⟩

theorem built_saveable {k : Kind} {sa : Nat} {dll : Bool} {sub : Nat} {p : Image} (h : Built (createImage k sa dll sub) p)
    (hsa : Pow2 sa) (h5 : 512 ≤ sa) (hsub : sub < 2 ^ 16) (strip chg sb : Bool) (hne : p.secs ≠ [])
    (hfile : newHeaders k strip p.secs.length + (p.secs.map (fun s => s.data.length)).sum < 2 ^ 32)
    (hfirst : ∀ s, p.secs.head? = some s → 1024 ≤ s.va) : p.Saveable strip chg sb := by
  obtain ⟨h1, h2, h3, h4, hk, h6, h7, h8, h9, h10⟩ := built_noBound h
  obtain ⟨e0, hc⟩ := create_fields k sa dll sub
  obtain ⟨n, hn, e⟩ := h.nt
  have hcount := h.table.count
  have hsal : sa < 2 ^ 32 := by obtain ⟨j, hj, rfl⟩ := hsa; exact Nat.pow_lt_pow_right (by decide) hj
  have hss : ∀ s ∈ p.secs, DoneSec sa s := by
    intro s hs
    have := h.secs s hs
    rw [← h.sa, h9] at this
    exact this
  refine { sized := ⟨⟨by rw [h1]; rfl, by rw [h2]; decide⟩, by rw [h6]; decide, by omega, by rw [h3]; decide⟩,
           shaped := ⟨by rw [h7]; rfl, fun s hs => (hss s hs).name, fun s hs => by
             have := (hss s hs).data; rw [(hss s hs).raw]; omega⟩,
           mz := by rw [h7]; decide, stub := by rw [h6]; decide, sig := by rw [e, e0]; rfl,
           magic := by rw [hk, e, e0]; rfl, ntRange := ?_,
           dirsRange := by intro d hd; rw [h1] at hd; rw [List.eq_of_mem_replicate hd]; decide,
           rel := .inr ⟨by rw [h8]; decide, by rw [h8, h9]; exact h5⟩, table := h.table, some := hne,
           secRange := ?_, sizes := ?_, below := .inr (fun s hs => by rw [h10]; exact hfirst s hs), noStale := ?_, fits := ?_ }
  · rw [hk]
    refine ⟨?_, ?_⟩
    · rw [e, e0]
      have hw : (createImage k sa dll sub).nt.chars < 65536 := hc
      generalize (createImage k sa dll sub).nt.chars = ch at hw
      intro f hf
      cases k <;> simp only [ntFields, createNt, Kind.ptr, List.cons_append, List.nil_append, List.mem_cons, List.not_mem_nil,
        or_false] at hf
      · rcases hf with rfl | rfl | rfl | rfl | rfl | rfl | rfl | rfl | rfl | rfl | rfl | rfl | rfl | rfl | rfl | rfl | rfl |
          rfl | rfl | rfl | rfl | rfl | rfl | rfl | rfl | rfl | rfl | rfl | rfl | rfl | rfl | rfl | rfl | rfl | rfl | rfl |
          rfl | rfl <;> first | decide | (dsimp only; omega)
      · rcases hf with rfl | rfl | rfl | rfl | rfl | rfl | rfl | rfl | rfl | rfl | rfl | rfl | rfl | rfl | rfl | rfl | rfl |
          rfl | rfl | rfl | rfl | rfl | rfl | rfl | rfl | rfl | rfl | rfl | rfl | rfl | rfl | rfl | rfl | rfl | rfl | rfl |
          rfl <;> first | decide | (dsimp only; omega)
    · intro hk; rw [e, e0]; rfl
  · intro s hs
    have d := hss s hs
    have := d.data
    have := d.vsize
    exact ⟨d.name, by omega, d.va, by rw [d.raw]; omega, by rw [d.rawPtr]; decide, d.relPtr, d.linePtr, d.nReloc, d.nLine, d.chars⟩
  · intro s hs
    have d := hss s hs
    refine ⟨d.raw.symm, d.vpos, d.vsize, by rw [d.raw]; exact d.data, ?_⟩
    rw [h8, h9, d.raw, ceilTo_of_dvd d.whole]
    exact Nat.le_trans d.room (ceilTo_ge hsa.pos)
  · intro i s hs _
    rw [(hss s (List.mem_of_getElem? hs)).rawPtr]
    exact Nat.zero_le _
  · unfold Image.FileFits
    rw [h8, rawOffset_done hss, built_dataStart h]
    exact hfile

/-- The header fields of new images, apart from those that depend on the sections. The machine type is i386 also for
    PE32+. -/
structure NewHdr (k : Kind) (dll : Bool) (h : NtHdr) : Prop where
  signature : h.signature = 0x4550
  machine : h.machine = 0x14C
  magic : h.magic = if k = .pe32 then 0x10B else 0x20B
  sizeOptHdr : h.sizeOptHdr = if k = .pe32 then 224 else 240
  chars : h.chars = 3 + (if k = .pe32 then 0x100 else 0) + (if dll then 0x2000 else 0)
  imageBase : h.imageBase = 0x400000
  fileAlign : h.fileAlign = 0x200
  versions : h.majorOs = 5 ∧ h.minorOs = 1 ∧ h.majorSubsys = 5 ∧ h.minorSubsys = 1
  stack : h.stackReserve = 0x100000 ∧ h.stackCommit = 0x1000
  heap : h.heapReserve = 0x100000 ∧ h.heapCommit = 0x1000
  entry : h.entry = 0
  stamp : h.timeStamp = 0
  checksum : h.checksum = 0
  dllChars : h.dllChars = 0
  numRva : h.numRva = 16

theorem create_new (k : Kind) (sa : Nat) (dll : Bool) (sub : Nat) : NewHdr k dll (createImage k sa dll sub).nt := by
  have hc : ∀ k dll, (createImage k 0 dll 0).nt.chars = 3 + (if k = Kind.pe32 then 0x100 else 0) + (if dll = true then 0x2000 else 0) := by
    intro k dll
    cases k <;> cases dll <;> decide
  have h : (createImage k sa dll sub).nt.chars = (createImage k 0 dll 0).nt.chars := by cases k <;> cases dll <;> rfl
  cases k <;> cases dll <;> exact ⟨rfl, rfl, rfl, rfl, h.trans (hc _ _), rfl, rfl, ⟨rfl, rfl, rfl, rfl⟩, ⟨rfl, rfl⟩, ⟨rfl, rfl⟩, rfl, rfl, rfl, rfl, rfl⟩

/-- C74: an image made from scratch. Sections are added one after the other to a new image; all calls succeed; the
    image can be saved (with every setting); the file that is written is opened by `create_pe`; and what is opened
    has the kind, the subsystem and the alignment asked for, the documented values in the other header fields, and
    exactly the given sections (names, data,
    characteristics and other fields), at consecutive addresses from the first address on. -/
theorem C74_from_scratch (k : Kind) (sa : Nat) (dll : Bool) (sub : Nat) (new : List Sec) (auto strip chg sb strict dbg : Bool)
    (hsa : Pow2 sa) (h5 : 512 ≤ sa) (hsub : sub < 2 ^ 16) (hne : new ≠ []) (h96 : new.length ≤ 96)
    (hnew : ∀ s ∈ new, NewSec sa s)
    (room : firstVa sa new + (new.map (fun s => ceilTo (max s.data.length s.vsize) sa)).sum < 2 ^ 32)
    (hfirst : 1024 ≤ firstVa sa new) (hhdr : newHeaders k strip new.length ≤ firstVa sa new)
    (hfile : newHeaders k strip new.length + (new.map (fun s => s.data.length)).sum < 2 ^ 32) :
    ∃ p q out r, (createImage k sa dll sub).addAll auto new = .ok p ∧ p.rebuildPe strip chg sb = .ok (q, out) ∧
      createPe strict false dbg out = .ok r ∧ r.kind = k ∧ r.nt.subsystem = sub ∧ r.nt.secAlign = sa ∧
      NewHdr k dll r.nt ∧ r.nt.numSections = new.length ∧
      r.secs.map (fun s => { s with rawPtr := 0 }) = placed sa (firstVa sa new) new := by
  have hb0 := create_built k sa dll sub hsa h5
  obtain ⟨-, -, -, -, -, -, -, hf, hs, hh⟩ := built_noBound hb0
  have hnext : ∀ s, new.head? = some s → nextVA (createImage k sa dll sub) s = firstVa sa new := by
    intro s hs'
    cases new with
    | nil => cases hs'
    | cons t l =>
      cases hs'
      show ceilTo (if s.va = 0 then _ else _) _ = ceilTo _ _
      rw [hs, hh]
  obtain ⟨p, h1, h2, h3⟩ := addAll_built hf auto new (by rw [hs]; exact hnew) _ hb0 (by show 0 + _ ≤ 96; omega) _ hnext
    (by rw [hs]; exact room)
  rw [show (createImage k sa dll sub).secs = [] from rfl, List.nil_append, hs] at h3
  obtain ⟨m1, m2, m3⟩ := placed_maps sa (firstVa sa new) new
  have hv : ∀ s, p.secs.head? = some s → s.va = firstVa sa new := by
    intro s hs'
    rw [← h3, hs'] at m3
    cases new with
    | nil => exact absurd rfl hne
    | cons t l => exact Option.some.inj m3
  have hpne : p.secs ≠ [] := by
    intro hh; rw [hh] at h3; rw [← h3] at m1
    exact hne (List.length_eq_zero_iff.mp m1.symm)
  have hsv := built_saveable h2 hsa h5 hsub strip chg sb hpne (by rw [h3, m1, m2]; exact hfile)
    (fun s hs' => by rw [hv s hs']; exact hfirst)
  obtain ⟨-, g2, g3, g4, gk, -, -, g8, g9, g10⟩ := built_noBound h2
  obtain ⟨q, out, h4⟩ := C18_completes p strip chg sb hsv.sized hsv.table.fa (by rw [g2]; decide) g4
    (fun s hs' => by have := (hsv.sizes s hs').1; omega)
    (fun _ s hs' => by rw [built_dataStart h2, h3, m1, hv s hs']; exact hhdr)
  obtain ⟨r, k1, k2, k3, k4, k5, -⟩ := C19_save_load p q strip chg sb strict dbg out zeroDirs rfl
    (by intro d hd; rw [List.eq_of_mem_replicate hd]; decide) hsv h4
  obtain ⟨-, hq, -⟩ := rebuildPe_ok hsv.sized hsv.table.fa h4
  obtain ⟨n, -, e⟩ := h2.nt
  obtain ⟨e0, -⟩ := create_fields k sa dll sub
  refine ⟨p, q, out, r, h1, h4, (C73_factory _ _ _ _ _).mpr ⟨_, k1⟩, k2.trans gk, ?_, ?_, ?_, ?_, ?_⟩
  · rw [k3, hq]; show p.nt.subsystem = _; rw [e, e0]; rfl
  · rw [k3, hq]; show p.nt.secAlign = _; exact g9
  · have c := create_new k sa dll sub
    have : NewHdr k dll p.nt := by
      rw [e]
      exact ⟨c.1, c.2, c.3, c.4, c.5, c.6, c.7, c.8, c.9, c.10, c.11, c.12, c.13, c.14, c.15⟩
    have ho : w16 (p.kind.sizeofOpt - 8 * (16 - p.nt.numRva)) = if k = .pe32 then 224 else 240 := by
      rw [this.15, gk]; cases k <;> decide
    rw [k3, hq]
    exact ⟨this.1, this.2, this.3, ho, this.5, this.6, this.7, this.8, this.9, this.10, this.11, this.12, this.13, this.14, this.15⟩
  · rw [k3, hq]; show w16 p.secs.length = _; rw [h3, m1]; exact Nat.mod_eq_of_lt (by omega)
  · rw [k5, h3]
    have : ∀ l : List Sec, (∀ s ∈ l, s.rawPtr = 0) → l.map (fun s => { s with rawPtr := 0 }) = l := by
      intro l hl
      refine (List.map_congr_left (fun s hs => ?_)).trans (List.map_id l)
      rw [← hl s hs]; rfl
    refine this _ (fun s hs => ?_)
    rw [← h3] at hs
    exact (h2.secs s hs).rawPtr

/-- Two sections: 512 bytes of code, and 6000 bytes of zeros in memory. -/
def scratchSecs : List Sec :=
  [{ name := [46, 116, 101, 120, 116, 0, 0, 0], data := (zeros 512).map (· + 0x90), chars := 0x60000020 },
   { name := [46, 98, 115, 115, 0, 0, 0, 0], vsize := 6000, chars := 0xc0000080 }]

example : ∃ p q out r, (createImage .pe64 0x1000 true 2).addAll true scratchSecs = .ok p ∧
    p.rebuildPe false true true = .ok (q, out) ∧ createPe true false true out = .ok r ∧ r.kind = .pe64 ∧
    r.secs.map (fun s => (s.va, s.vsize, s.data)) =
      [(0x1000, 512, (zeros 512).map (· + 0x90)), (0x2000, 0x2000, [])] := by
  have hn : ∀ s ∈ scratchSecs, NewSec 0x1000 s := by
    intro s hs
    simp only [scratchSecs, List.mem_cons, List.not_mem_nil, or_false] at hs
    rcases hs with rfl | rfl
    · exact ⟨rfl, ⟨1, by decide +kernel⟩, .inl (by decide +kernel), by decide +kernel, by decide, by decide, rfl, by decide, by decide, by decide, by decide, by decide⟩
    · exact ⟨rfl, ⟨0, rfl⟩, .inr (by decide), by decide, by decide, by decide, rfl, by decide, by decide, by decide, by decide, by decide⟩
  obtain ⟨p, q, out, r, h1, h2, h3, h4, -, -, -, -, h5⟩ := C74_from_scratch .pe64 0x1000 true 2 scratchSecs true false true true true true
    pow2_4096 (by decide) (by decide) (by simp [scratchSecs]) (by decide) hn (by decide +kernel) (by decide) (by decide) (by decide +kernel)
  refine ⟨p, q, out, r, h1, h2, h3, h4, ?_⟩
  have := congrArg (List.map (fun s : Sec => (s.va, s.vsize, s.data))) h5
  rw [List.map_map] at this
  refine Eq.trans ?_ (this.trans ?_)
  · rfl
  · decide +kernel

/-- The headers of 95 sections do not fit in front of the default address of the first one: saving is refused. -/
theorem C74_headers_too_long : ∃ p, (createImage .pe32 0x1000 false 3).addAll true
    (List.replicate 95 { name := zeros 8, vsize := 1 }) = .ok p ∧
    p.rebuildPe false true true = .error (.exn .cannotRebuildImage) := by
  obtain ⟨p, h1, h2⟩ := exists_of_okAnd (x := (createImage .pe32 0x1000 false 3).addAll true
      (List.replicate 95 { name := zeros 8, vsize := 1 }))
    (f := fun p => match p.rebuildPe false true true with | .error (.exn .cannotRebuildImage) => true | _ => false)
    (by decide +kernel)
  refine ⟨p, h1, ?_⟩
  split at h2
  · next h => exact h
  · cases h2

end PE
