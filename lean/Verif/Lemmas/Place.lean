/-
Helper lemmas: the common end of the directory rebuilders, and reading back what they stored.
-/
import Verif.Model.DirWrite
import Verif.Lemmas.Host
import Verif.Lemmas.Dirs

namespace PE

theorem growTo_length (d : Bytes) (n : Nat) : (growTo d n).length = max d.length n := by
  unfold growTo
  split
  · rw [resize_length]; omega
  · omega

theorem growTo_ge (d : Bytes) (n : Nat) : n ≤ (growTo d n).length ∧ d.length ≤ (growTo d n).length := by
  rw [growTo_length]; omega

theorem slice_growTo {d : Bytes} {m off n : Nat} (h : off + n ≤ d.length) : slice (growTo d m) off n = slice d off n := by
  unfold growTo
  split
  · exact slice_resize (by omega) h
  · rfl

theorem HostRoom.grow {p : Image} {i : Nat} {s : Sec} {n : Nat} (hh : Host p i s) (h : HostRoom p i s n) :
    HostRoom p i s (growTo s.data n).length := by
  have hv := hh.valid
  rw [growTo_length]
  by_cases hc : s.data.length ≤ n
  · rw [Nat.max_eq_right hc]; exact h
  · rw [Nat.max_eq_left (by omega)]
    have hm := List.mem_of_getElem? hh.sec
    have hfits := hv.fits s hm
    have hdat := hh.data
    have hraw := hh.raw
    unfold HostRoom at h ⊢
    split
    · have : ceilTo s.data.length p.nt.secAlign ≤ s.span p.nt.secAlign :=
        ceilTo_least hv.sa.pos (ceilTo_dvd _ _) (by omega)
      have := hfits.fin
      omega
    · next hc' => rw [if_neg hc'] at h; exact ⟨h.1, hdat⟩

theorem HostRoom.check {p : Image} {i : Nat} {s : Sec} {n : Nat} (hh : Host p i s) (h : HostRoom p i s n) :
    p.spaceCheck i s n = .ok () := by
  have hv := hh.valid
  have hm := List.mem_of_getElem? hh.sec
  have hfits := hv.fits s hm
  have hau : alignUp s.rawSize p.nt.fileAlign = ceilTo s.rawSize p.nt.fileAlign :=
    alignUp_of_le hv.fa hfits.rawSize (by have := hh.raw; have := hfits.fin; omega)
  unfold Image.spaceCheck
  rw [throwIf_neg]
  rintro ⟨hc1, hc2⟩
  unfold HostRoom at h
  rw [if_neg hc1] at h
  rcases hc2 with h' | h'
  · exact h.1 (by simpa [Sec.empty] using h')
  · rw [hau] at h'; omega

/-- What the image `q` looks like after the rebuilder put the raw data `d` into section `s` (number `i`) of `p` and
    stored the directory entry `id`. -/
structure DirPlaced (p q : Image) (i : Nat) (s : Sec) (d : Bytes) (strip : Bool) (id : Nat) (dir : Nat × Nat) : Prop where
  valid : ValidTable q
  kind : q.kind = p.kind
  hdr : q.hdrData = p.hdrData
  rest : q = { p with secs := q.secs, nt := q.nt }
  again : Rehosted q i s
  count : q.secs.length = p.secs.length
  others : ∀ j, j ≠ i → q.secs[j]? = p.secs[j]?
  /-- Only the entry `id` of the NT headers changed. -/
  nt : q.nt = { p.nt with dirs := p.nt.dirs.set id dir }
  here : ∃ k s', q.secs[i]? = some s' ∧ s'.va = s.va ∧ Window q s.va (d ++ zeros k) s' ∧
    (strip = false ∨ i + 1 = p.secs.length → s'.data = d) ∧ (∃ z, d = s'.data ++ zeros z)

theorem finishDir_placed {p : Image} {i : Nat} {s : Sec} {d : Bytes} (strip : Bool) {id : Nat} (dir : Nat × Nat)
    (hh : Host p i s) (hdirs : p.nt.DirsOk) (hid : id < p.nt.numRva) (hne : d ≠ [])
    (hge : s.data.length ≤ d.length) (hroom : HostRoom p i s d.length) :
    ∃ q, p.finishDir i s d strip true id dir = .ok (q, dir) ∧ DirPlaced p q i s d strip id dir := by
  have hi : i < p.secs.length := by
    have := hh.sec; rw [List.getElem?_eq_some_iff] at this; exact this.1
  have hrec := recalc_host strip hh hne hge hroom
  obtain ⟨k, hwin⟩ := hosted_window strip hh hne hge hroom
  have hval := hosted_valid strip hh hne hge hroom
  have hfacts := hosted_facts strip hh hne hge hroom
  have hagain := hosted_again strip hh hne hge hroom
  have hd1 : strip = false ∨ i + 1 = p.secs.length → (hosted p i s d strip).data = d := by
    intro hs
    unfold hosted
    dsimp only
    rw [if_neg (by rintro ⟨h1, h2⟩; rcases hs with h | h; · rw [h] at h1; cases h1
                   · exact h2 h)]
    rfl
  have hd2 : ∃ z, d = (hosted p i s d strip).data ++ zeros z := by
    unfold hosted
    dsimp only
    split
    · exact strip_zeros d
    · exact ⟨0, by simp [zeros, Sec.prepared]⟩
  generalize hosted p i s d strip = s' at *
  refine ⟨{ p with secs := p.secs.set i s', nt := { p.nt with dirs := p.nt.dirs.set id dir } }, ?_, ?_⟩
  · have hbind := setDir_both hdirs hid dir.1 dir.2
    have h1 := setDir_rva hdirs hid dir.1
    rw [h1, ok_bind] at hbind
    unfold Image.finishDir
    rw [hrec, ok_bind]
    simp only [if_true]
    rw [h1, ok_bind, hbind, ok_bind]
  · exact {
      valid := hval.congr rfl rfl rfl rfl
      kind := rfl
      hdr := rfl
      rest := rfl
      again := hagain.congr rfl rfl rfl rfl rfl
      count := by simp
      others := fun j hj => by simp [List.getElem?_set_ne (Ne.symm hj)]
      nt := rfl
      here := ⟨k, s', by simp [hi], hfacts.1, hwin.congr rfl rfl rfl, hd1, hd2⟩ }

theorem DirPlaced.dirsOk {p q : Image} {i : Nat} {s : Sec} {d : Bytes} {strip : Bool} {id : Nat} {dir : Nat × Nat}
    (h : DirPlaced p q i s d strip id dir) (hd : p.nt.DirsOk) : q.nt.DirsOk := by
  rw [h.nt]; exact DirsOk.set hd _ _

/-- The stored directory is found again. -/
theorem DirPlaced.dir {p q : Image} {i : Nat} {s : Sec} {d : Bytes} {strip : Bool} {id : Nat} {dir : Nat × Nat}
    (h : DirPlaced p q i s d strip id dir) (hd : p.nt.DirsOk) (hid : id < p.nt.numRva) :
    q.nt.getDirRva id = .ok dir.1 ∧ q.nt.getDirSize id = .ok dir.2 ∧ q.hasDir id = .ok (decide (dir.1 ≠ 0)) := by
  refine getDir_stored (h.dirsOk hd) (by rw [h.nt]; exact hid) ?_
  rw [h.nt]
  have := hd.slots
  have := hd.count
  exact List.getElem?_set_self (by omega)

/-- Reading the raw data of a section by address. -/
structure RawWindow (q : Image) (va : Nat) (d : Bytes) : Prop where
  readT : ∀ hdrs off n, off < d.length → off + n ≤ d.length →
    q.readT n (va + off) .raw hdrs = .ok (slice d off n)
  ptr : ∀ hdrs off, off < d.length → q.ptrFromRva (va + off) .raw hdrs = .ok (d, off)
  len : ∀ hdrs off, off < d.length → q.dataLenFrom (va + off) (va + off) .raw hdrs = .ok (d.length - off)

theorem rawWindow_of {q : Image} {va : Nat} {m : Bytes} {s : Sec} (h : Window q va m s)
    (hh : q.hdrData.length ≤ va) (hl : s.data.length ≤ m.length) : RawWindow q va s.data := by
  have hf := h.fin
  have hva := h.sva
  refine ⟨?_, ?_, ?_⟩
  · intro hdrs off n ho hn
    unfold Image.readT
    rw [if_neg (by rintro ⟨_, _, h⟩; omega), h.sec off (by omega), ok_bind]
    show (if s.data.length < _ then _ else readN s.data _ _) = _
    rw [hva, sub32_of_le (by omega) (by omega), show va + off - va = off by omega, if_neg (by omega), readN_ok hn]
  · intro hdrs off ho
    unfold Image.ptrFromRva
    rw [if_neg (by rintro ⟨_, h⟩; omega), h.sec off (by omega), ok_bind, hva, show va + off - va = off by omega]
    rfl
  · intro hdrs off ho
    unfold Image.dataLenFrom
    rw [if_neg (by rintro ⟨_, h, _⟩; omega), h.sec off (by omega), ok_bind, if_neg (by omega)]
    show Except.ok (w32 (s.data.length + s.va - (va + off))) = _
    rw [hva, w32, Nat.mod_eq_of_lt (by omega)]
    congr 1; omega

theorem DirPlaced.raw {p q : Image} {i : Nat} {s : Sec} {d : Bytes} {strip : Bool} {id : Nat} {dir : Nat × Nat}
    (h : DirPlaced p q i s d strip id dir) (hh : Host p i s) (hs : strip = false ∨ i + 1 = p.secs.length) :
    RawWindow q s.va d := by
  obtain ⟨k, s', h1, h2, h3, h4, -⟩ := h.here
  have := rawWindow_of h3 (by rw [h.hdr]; exact hh.hdr) (by rw [h4 hs]; simp)
  rw [h4 hs] at this
  exact this

theorem slice_patch_inside {b e : Bytes} {off o n : Nat} (h : off + e.length ≤ b.length) (ho : o + n ≤ e.length) :
    slice (patch b off e) (off + o) n = slice e o n := by
  have := slice_slice (b := patch b off e) (o1 := off) (n1 := e.length) ho
  rw [slice_patch_same h] at this
  exact this.symm

/-- The rebuilder wrote `e` at offset `pos` of the section, whose data were grown to `N` bytes before: the image can be
    read accordingly. -/
structure Written (p q : Image) (i : Nat) (s : Sec) (pos N : Nat) (e : Bytes) (strip : Bool) (id : Nat)
    (dir : Nat × Nat) : Prop where
  placed : DirPlaced p q i s (patch (growTo s.data N) pos e) strip id dir
  rebuilt : RebuiltIn p q i s pos e.length id dir
  has : q.hasDir id = .ok (decide (dir.1 ≠ 0))
  virt : ∀ hdrs o n, 0 < n → o + n ≤ e.length → q.readT n (s.va + pos + o) .virt hdrs = .ok (slice e o n)
  raw : strip = false ∨ i + 1 = p.secs.length → ∀ hdrs o n, 0 < n → o + n ≤ e.length →
    q.readT n (s.va + pos + o) .raw hdrs = .ok (slice e o n)

theorem finishDir_written {p : Image} {i : Nat} {s : Sec} {pos N : Nat} {e : Bytes} (strip : Bool) {id : Nat}
    (dir : Nat × Nat) (hh : Host p i s) (hdirs : p.nt.DirsOk) (hid : id < p.nt.numRva) (hpos : 0 < N)
    (hN : pos + e.length ≤ N) (hroom : HostRoom p i s N) :
    ∃ q, p.finishDir i s (patch (growTo s.data N) pos e) strip true id dir = .ok (q, dir) ∧
      Written p q i s pos N e strip id dir := by
  have hg := growTo_ge s.data N
  have hle : pos + e.length ≤ (growTo s.data N).length := by omega
  have hlen := patch_length hle
  have hroom' := hroom.grow hh
  have hl := hroom'.lt hh
  obtain ⟨q, hq, hp⟩ := finishDir_placed (d := patch (growTo s.data N) pos e) strip dir hh hdirs hid
    (by intro h0; rw [h0] at hlen; simp at hlen; omega) (by omega) (by rw [hlen]; exact hroom')
  refine ⟨q, hq, ?_⟩
  have hdir := hp.dir hdirs hid
  obtain ⟨k, s', h1, h2, h3, h4, h5⟩ := hp.here
  have hv : ∀ hdrs o n, 0 < n → o + n ≤ (patch (growTo s.data N) pos e).length →
      q.readT n (s.va + o) .virt hdrs = .ok (slice (patch (growTo s.data N) pos e) o n) := by
    intro hdrs o n hn ho
    rw [h3.readT hdrs o n (by simp; omega) (by simp; omega), slice_append_left ho]
  exact {
    placed := hp
    has := hdir.2.2
    rebuilt := {
      valid := hp.valid
      kind := hp.kind
      hdr := hp.hdr
      rest := hp.rest
      again := hp.again
      count := hp.count
      others := hp.others
      nt := hp.nt
      rva := hdir.1
      size := hdir.2.1
      frame := by
        intro hdrs o n hn ho hd
        rw [hv hdrs o n hn (by omega), slice_patch_disjoint hle (by omega), slice_growTo ho] }
    virt := by
      intro hdrs o n hn ho
      rw [Nat.add_assoc, hv hdrs _ n hn (by omega), slice_patch_inside hle ho]
    raw := by
      intro hs hdrs o n hn ho
      rw [Nat.add_assoc, (hp.raw hh hs).readT hdrs _ n (by omega) (by omega), slice_patch_inside hle ho] }

end PE
