/-
C90: several directories in one section, among them TLS.
-/
import Verif.Props.Shared
namespace PE

/-! ### Calls, including `rebuild_tls` -/

/-- There is room for `rebuild_tls`, and what it has to write can be written (the hypotheses of C43). -/
structure TlsReady (p : Image) (i off : Nat) (s : Sec) (t : TlsInfo) (x : ExpandType) : Prop where
  hosts : AllHosts p
  sec : p.secs[i]? = some s
  dirs : p.nt.DirsOk
  num : dirTls < p.nt.numRva
  offLt : off < 2 ^ 32 - 8
  room : HostRoom p i s (ceilTo off p.kind.ptr + p.kind.sizeofTls)
  page : ceilTo off p.kind.ptr + p.kind.sizeofTls ≤ s.span p.nt.secAlign
  sound : t.Sound
  mapped : t.Mapped p
  data : t.start ≠ 0 → RoomAt p (decide (x = .raw)) t.start t.raw.length
  table : t.callbacksRva ≠ 0 → RoomAt p true t.callbacksRva (p.kind.ptr * (t.callbacks.length + 1))
  apart1 : Apart (s.va + ceilTo off p.kind.ptr) p.kind.sizeofTls t.start t.raw.length
  apart2 : Apart (s.va + ceilTo off p.kind.ptr) p.kind.sizeofTls t.callbacksRva (t.tableLen p.kind)
  apart3 : Apart t.start t.raw.length t.callbacksRva (t.tableLen p.kind)

/-- There is room for the call (`DirEdit.Ready`), TLS included. -/
inductive DirEdit.Fit (p : Image) : DirEdit → Prop
  | other {e : DirEdit} (h : e.Ready p) : Fit p e
  | tls (i off : Nat) (s : Sec) (t : TlsInfo) (x : ExpandType) (strip : Bool) (h : TlsReady p i off s t x) :
      Fit p (.tls i t off true true x true strip)

/-- The ranges of addresses that the call writes to: (start, length). -/
def DirEdit.ranges (p : Image) (e : DirEdit) : List (Nat × Nat) :=
  match p.secs[e.sec]? with
  | none => []
  | some s => match e with
    | .tls _ t off _ _ _ _ _ =>
      [(s.va + ceilTo off p.kind.ptr, p.kind.sizeofTls), (t.start, t.raw.length), (t.callbacksRva, t.tableLen p.kind)]
    | e => [(s.va + (e.extent p.kind).1, (e.extent p.kind).2)]

/-- The call `b`, made after `a`, leaves alone what `a` has written: it stores other directories, writes to other addresses, and
    does not remove bytes at the end of the raw data of the section if those are read. -/
structure DirEdit.Separate (p : Image) (a b : DirEdit) : Prop where
  stores : ∀ x ∈ a.stores, x ∉ b.stores
  part : ∀ x ∈ a.ranges p, ∀ y ∈ b.ranges p, PE.Apart x.1 x.2 y.1 y.2
  raw : a.sec = b.sec → a.ReadsRaw → b.strip = false ∨ b.sec + 1 = p.secs.length

instance DirEdit.decSeparate (p : Image) (a b : DirEdit) : Decidable (a.Separate p b) :=
  decidable_of_iff ((∀ x ∈ a.stores, x ∉ b.stores) ∧ (∀ x ∈ a.ranges p, ∀ y ∈ b.ranges p, PE.Apart x.1 x.2 y.1 y.2) ∧
      (a.sec = b.sec → a.ReadsRaw → b.strip = false ∨ b.sec + 1 = p.secs.length))
    ⟨fun h => ⟨h.1, h.2.1, h.2.2⟩, fun h => ⟨h.1, h.2, h.3⟩⟩

theorem KeptBy.ranges {p q : Image} (h : KeptBy p q) {e : DirEdit} (hs : p.secs[e.sec]? ≠ none) : e.ranges q = e.ranges p := by
  unfold DirEdit.ranges
  cases g : p.secs[e.sec]? with
  | none => exact absurd g hs
  | some s =>
    obtain ⟨t, h1, h2⟩ := h.vas _ s g
    rw [h1]
    dsimp only
    rw [h2, h.kind]

def DirEdit.IsTls : DirEdit → Prop
  | .tls .. => True
  | _ => False

theorem DirEdit.ranges_other {p : Image} {e : DirEdit} {s : Sec} (he : ¬ e.IsTls) (hs : p.secs[e.sec]? = some s) :
    e.ranges p = [(s.va + (e.extent p.kind).1, (e.extent p.kind).2)] := by
  unfold DirEdit.ranges
  rw [hs]
  cases e <;> first | rfl | exact absurd trivial he

theorem DirEdit.Ready.notTls {p : Image} {e : DirEdit} (h : e.Ready p) : ¬ e.IsTls := by
  cases h <;> exact id

/-- What a call has written is there. -/
inductive DirEdit.Stays (p q : Image) : DirEdit → Prop
  | other {e : DirEdit} (he : ¬ e.IsTls) (h : e.Lasts p q) : Stays p q e
  | tls (i off : Nat) (s : Sec) (t : TlsInfo) (x : ExpandType) (strip : Bool) (hs : p.secs[i]? = some s) (hso : t.Sound)
      (hm : t.Mapped p) (h : t.SeenIn p q (s.va + ceilTo off p.kind.ptr)) : Stays p q (.tls i t off true true x true strip)

theorem DirEdit.Stays.now {e : DirEdit} {p q : Image} (h : e.Stays p q) : e.Reads p q := by
  cases h with
  | other he h => exact h.now
  | tls i off s t x strip hs hso hm h => exact h.read hso hm

theorem Seen.of_hosts {q r : Image} {rva : Nat} {x : Bytes} (h : Seen q rva x)
    (hh : ∀ k t, Host q k t → ∃ t', Host r k t' ∧ t'.va = t.va ∧ t'.memory r.nt.secAlign = t.memory q.nt.secAlign) : Seen r rva x := by
  obtain ⟨k, t, o, h1, h2, h3, h4⟩ := h
  obtain ⟨t', g1, g2, g3⟩ := hh k t h1
  exact ⟨k, t', o, g1, by rw [g2]; exact h2, by rw [g3]; exact h3, by rw [g3]; exact h4⟩

theorem TlsInfo.SeenIn.noHdr {t : TlsInfo} {p q : Image} {loc : Nat} (h : t.SeenIn p q loc) : t.SeenIn p q.noHdr loc := by
  have hh : ∀ (k : Nat) (u : Sec), Host q k u → ∃ u', Host q.noHdr k u' ∧ u'.va = u.va ∧
      u'.memory q.noHdr.nt.secAlign = u.memory q.nt.secAlign := fun k u hu =>
    ⟨u, hu.alike (noHdr_alike _ _) (hu.valid.congr rfl rfl rfl rfl) (Nat.zero_le _), rfl, rfl⟩
  exact ⟨h.kind, h.base, h.rva, h.has, h.struct.of_hosts hh, fun g => (h.raw g).of_hosts hh, fun g => (h.table g).of_hosts hh⟩

theorem DirEdit.Stays.saved {e : DirEdit} {p q w : Image} (h : e.Stays p q) (hw : SavedLoaded q w) : e.Reads p w := by
  cases h with
  | other he h => exact h.saved hw
  | tls i off s t x strip hs hso hm h => exact (hw.reads (numRva_pos h.rva)).1.tls _ (h.noHdr.read hso hm)

/-! ### What later calls leave alone -/

theorem at_of_getD {m m' x : Bytes} {o : Nat} (h : At m o x) (hl : m.length ≤ m'.length)
    (hd : ∀ k, o ≤ k → k < o + x.length → m'.getD k 0 = m.getD k 0) : At m' o x := by
  refine ⟨Nat.le_trans h.1 hl, ?_⟩
  have e : slice m' o x.length = slice m o x.length := by
    refine List.ext_getElem? fun k => ?_
    rw [getElem?_slice, getElem?_slice]
    split
    · next hk =>
      have h1 := h.1
      have := hd (o + k) (by omega) (by omega)
      rw [List.getD_eq_getElem?_getD, List.getD_eq_getElem?_getD, List.getElem?_eq_getElem (by omega),
        List.getElem?_eq_getElem (by omega)] at this
      rw [List.getElem?_eq_getElem (by omega), List.getElem?_eq_getElem (by omega)]
      exact congrArg some this
    · rfl
  rw [e]; exact h.2

/-- A successful `rebuild_tls`. -/
theorem TlsReady.run {p : Image} {i off : Nat} {s : Sec} {t : TlsInfo} {x : ExpandType} (h : TlsReady p i off s t x) (strip : Bool) :
    ∃ q, p.rebuildTls t i off true true x true strip = .ok (q, (s.va + ceilTo off p.kind.ptr, p.kind.sizeofTls)) ∧
      q = { p with secs := q.secs, nt := q.nt } ∧
      t.SeenIn p q (s.va + ceilTo off p.kind.ptr) ∧ ValidTable q ∧ q.secs.length = p.secs.length ∧
      q.nt = { p.nt with dirs := p.nt.dirs.set dirTls (s.va + ceilTo off p.kind.ptr, p.kind.sizeofTls) } ∧
      ∀ (k : Nat) (u : Sec), p.secs[k]? = some u → ∃ v, Host q k v ∧ u.Resized v ∧
        (u.memory p.nt.secAlign).length ≤ (v.memory p.nt.secAlign).length ∧
        (∀ o, ¬ t.Writes p.kind (s.va + ceilTo off p.kind.ptr) (u.va + o) →
          (v.memory p.nt.secAlign).getD o 0 = (u.memory p.nt.secAlign).getD o 0) ∧
        (k ≠ i ∨ strip = false ∨ i + 1 = p.secs.length → u.data.length ≤ v.data.length ∧
          ∀ o, ¬ t.Writes p.kind (s.va + ceilTo off p.kind.ptr) (u.va + o) → v.data.getD o 0 = u.data.getD o 0) := by
  obtain ⟨q, h1, h2, h3, -, h4, -, -, h5, h6, -, h7⟩ := tls_lasting p i off s t x strip h.hosts h.sec h.dirs h.num h.offLt _ rfl h.room h.page h.sound h.mapped
    h.data h.table h.apart1 h.apart2 h.apart3
  exact ⟨q, h1, h2, h3, h4, h5, h6, h7⟩

theorem getDir_set_ne {n : NtHdr} {id k : Nat} {d : Nat × Nat} (hk : k ≠ id) :
    ({ n with dirs := n.dirs.set id d } : NtHdr).getDirRva k = n.getDirRva k ∧
    ({ n with dirs := n.dirs.set id d } : NtHdr).getDirSize k = n.getDirSize k ∧
    ({ n with dirs := n.dirs.set id d } : NtHdr).directoryExists k = n.directoryExists k := by
  unfold NtHdr.getDirRva NtHdr.getDirSize NtHdr.directoryExists NtHdr.dirAt
  dsimp only
  rw [List.getElem?_set_ne (Ne.symm hk)]
  exact ⟨rfl, rfl, rfl⟩

theorem writes_not {t : TlsInfo} {k : Kind} {loc a n b : Nat} (h1 : Apart a n loc k.sizeofTls) (h2 : Apart a n t.start t.raw.length)
    (h3 : Apart a n t.callbacksRva (t.tableLen k)) (hb : a ≤ b) (hb' : b < a + n) : ¬ t.Writes k loc b := by
  unfold Apart at h1 h2 h3
  unfold TlsInfo.Writes
  omega

/-- The other directories after `rebuild_tls`. -/
theorem DirEdit.Lasts.tls {e : DirEdit} {p q r : Image} {i off : Nat} {s : Sec} {t : TlsInfo} {x : ExpandType} {strip : Bool} {d : Nat × Nat}
    (h : e.Lasts p q) (he : ¬ e.IsTls) (hf : TlsReady q i off s t x) (hr : q.rebuildTls t i off true true x true strip = .ok (r, d))
    (hc : e.Separate q (.tls i t off true true x true strip)) : e.Lasts p r := by
  obtain ⟨s', L, y, id, dir, raw, h⟩ := h
  obtain ⟨r', g1, g2, -, g3, g4, g5, g6⟩ := hf.run strip
  obtain ⟨rfl, -⟩ := Prod.mk.inj (Except.ok.inj (g1.symm.trans hr))
  have hid : id ≠ dirTls := fun g => hc.stores id h.id_mem (by rw [g]; exact List.mem_cons_self)
  obtain ⟨k1, k2, k3⟩ := getDir_set_ne (n := q.nt) (d := (s.va + ceilTo off q.kind.ptr, q.kind.sizeofTls)) hid
  have rk : r'.kind = q.kind := by rw [g2]
  refine ⟨s', L, y, id, dir, raw, h.id_mem, h.len, h.rawOnly, ?_, fun g => by rw [g5]; exact h.flag g, fun g => ?_, h.reads⟩
  · obtain ⟨u, u1, u2, u3, u4, u5⟩ := h.shown.sec
    obtain ⟨v, v1, v2, v3, v4, v5⟩ := g6 _ u u1.sec
    have sa : r'.nt.secAlign = q.nt.secAlign := by rw [g5]
    have hrg : e.ranges q = _ := DirEdit.ranges_other he u1.sec
    have hrt : DirEdit.ranges q (.tls i t off true true x true strip) =
        [(s.va + ceilTo off q.kind.ptr, q.kind.sizeofTls), (t.start, t.raw.length), (t.callbacksRva, t.tableLen q.kind)] := by
      unfold DirEdit.ranges
      show (match q.secs[i]? with | none => _ | some s => _) = _
      rw [hf.sec]
    have hp := hc.part
    rw [hrg, hrt] at hp
    have hp := hp _ List.mem_cons_self
    have hnot : ∀ k, (e.extent p.kind).1 ≤ k → k < (e.extent p.kind).1 + y.length →
        ¬ t.Writes q.kind (s.va + ceilTo off q.kind.ptr) (u.va + k) := by
      intro k a1 a2
      have hl := h.len
      have ek := h.shown.kind
      rw [ek] at hp ⊢
      exact writes_not (hp _ List.mem_cons_self) (hp _ (List.mem_cons_of_mem _ List.mem_cons_self))
        (hp _ (List.mem_cons_of_mem _ (List.mem_cons_of_mem _ List.mem_cons_self))) (by dsimp only; omega) (by dsimp only; omega)
    refine ⟨rk.trans h.shown.kind, by rw [g5]; exact h.shown.base, by rw [g5, k1]; exact h.shown.rva, by rw [g5, k2]; exact h.shown.size,
      by unfold Image.hasDir; rw [g5, k3]; exact h.shown.has, v, v1, v2.va.trans u2, by rw [sa]; omega, ?_, fun g => ?_⟩
    · rw [sa]
      exact at_of_getD u4 v3 fun k a1 a2 => v4 k (hnot k a1 a2)
    · obtain ⟨w1, w2⟩ := v5 (by
        by_cases hi : e.sec = i
        · exact .inr (hc.raw hi (h.rawOnly g))
        · exact .inl hi)
      exact at_of_getD (u5 g) w1 fun k a1 a2 => w2 k (hnot k a1 a2)
  · obtain ⟨b1, b2, b3⟩ := h.bound g
    rw [g5]
    exact ⟨b1, b2, ⟨List.length_set.trans b3.slots, b3.count⟩⟩

/-- Bytes in a section after a call for something else. -/
theorem Seen.step {q r : Image} {f : DirEdit} {rva : Nat} {x : Bytes} {d : Nat × Nat} (h : Seen q rva x) (hf : f.Ready q)
    (hr : f.run q = .ok (r, d)) (hp : ∀ y ∈ f.ranges q, PE.Apart rva x.length y.1 y.2) : Seen r rva x := by
  obtain ⟨k, t, o, h1, h2, h3, h4⟩ := h
  by_cases he : k = f.sec
  · obtain ⟨t', ht, ⟨u, u1, u2, u3, u4, -⟩, -⟩ := hf.lasts hr
    have e1 : t' = t := by have := ht.sec; rw [← he, h1.sec] at this; exact (Option.some.inj this).symm
    subst e1
    have hrg := hp _ (by rw [DirEdit.ranges_other hf.notTls ht.sec]; exact List.mem_cons_self)
    unfold PE.Apart at hrg
    dsimp only at hrg
    exact ⟨f.sec, u, o, u1, by rw [u2]; exact h2, by omega, h4.framed u3 u4 (by omega)⟩
  · obtain ⟨s', u, hu, hb⟩ := DirEdit.run_become hf.inside hr
    obtain ⟨r', d', g1, g2, -⟩ := hf.run
    obtain ⟨rfl, -⟩ := Prod.mk.inj (Except.ok.inj (g1.symm.trans hr))
    have hk := hu.keeps q.nt
    have sa : r'.nt.secAlign = q.nt.secAlign := by rw [hb]; exact hk.sa
    refine ⟨k, t, o, h1.alike ?_ g2 (by rw [hb]; exact Nat.le_refl _), h2, by rw [sa]; exact h3, by rw [sa]; exact h4⟩
    rw [hb]; exact Alike.of_become q (Ne.symm he) s' hu

/-- TLS after another call. -/
theorem TlsInfo.SeenIn.step {q r p : Image} {f : DirEdit} {t : TlsInfo} {loc : Nat} {d : Nat × Nat} (h : t.SeenIn p q loc) (hf : f.Ready q)
    (hr : f.run q = .ok (r, d)) (hst : dirTls ∉ f.stores) (h1 : ∀ y ∈ f.ranges q, PE.Apart loc q.kind.sizeofTls y.1 y.2)
    (h2 : ∀ y ∈ f.ranges q, PE.Apart t.start t.raw.length y.1 y.2)
    (h3 : ∀ y ∈ f.ranges q, PE.Apart t.callbacksRva (t.tableLen q.kind) y.1 y.2) : t.SeenIn p r loc := by
  obtain ⟨s', u, hu, hb⟩ := DirEdit.run_become hf.inside hr
  have hn : r.nt = u q.nt := by rw [hb]; rfl
  obtain ⟨k1, k2, k3⟩ := hu.entry hst q.nt
  refine ⟨by rw [hb]; exact h.kind, by rw [hn, (hu.keeps q.nt).base]; exact h.base, by rw [hn, k1]; exact h.rva,
    by unfold Image.hasDir; rw [hn, k3]; exact h.has, h.struct.step hf hr ?_, fun g => (h.raw g).step hf hr h2,
    fun g => (h.table g).step hf hr ?_⟩
  · rw [TlsInfo.struct_length, ← h.kind]; exact h1
  · rw [TlsInfo.table_length, ← h.kind]
    unfold TlsInfo.tableLen at h3
    rw [if_neg g] at h3
    exact h3

/-! ### Sequences of calls -/

/-- What a call with enough room has written is there. -/
theorem DirEdit.Fit.stays {p q : Image} {e : DirEdit} {d : Nat × Nat} (h : e.Fit p) (hq : e.run p = .ok (q, d)) : e.Stays p q := by
  cases h with
  | other h =>
    obtain ⟨s, -, -, hl⟩ := h.lasts hq
    exact .other h.notTls hl
  | tls i off s t x strip h =>
    obtain ⟨q', g1, -, g2, -⟩ := h.run strip
    obtain ⟨rfl, -⟩ := Prod.mk.inj (Except.ok.inj (g1.symm.trans hq))
    exact .tls i off s t x strip h.sec h.sound h.mapped g2

theorem DirEdit.Fit.run {p : Image} {e : DirEdit} (h : e.Fit p) : ∃ q d, e.run p = .ok (q, d) ∧ ValidTable q := by
  cases h with
  | other h =>
    obtain ⟨q, d, h1, h2, -⟩ := h.run
    exact ⟨q, d, h1, h2⟩
  | tls i off s t x strip h =>
    obtain ⟨q, g1, -, -, g3, -⟩ := h.run strip
    exact ⟨q, _, g1, g3⟩

theorem DirEdit.Fit.kept {p q : Image} {e : DirEdit} {d : Nat × Nat} (h : e.Fit p) (hq : e.run p = .ok (q, d)) : KeptBy p q := by
  cases h with
  | other h => exact h.kept hq
  | tls i off s t x strip h =>
    obtain ⟨q', g1, g2, -, -, g4, g5, g6⟩ := h.run strip
    obtain ⟨rfl, -⟩ := Prod.mk.inj (Except.ok.inj (g1.symm.trans hq))
    refine ⟨by rw [g2], ⟨?_, ?_, ?_, ?_, ?_, ?_⟩, g4, by rw [g2], fun k u hu => ?_⟩
    · rw [g5]
    · rw [g5]
    · rw [g5]
    · rw [g5]
    · rw [g5]; exact List.length_set
    · rw [g5]
    · obtain ⟨v, v1, v2, -⟩ := g6 k u hu
      exact ⟨v, v1.sec, v2.va⟩

/-- Calls with enough room leave the image in order. -/
theorem TlsReady.orderly {p q : Image} {i off : Nat} {s : Sec} {t : TlsInfo} {x : ExpandType} {strip : Bool} {d : Nat × Nat}
    (h : TlsReady p i off s t x) (hq : p.rebuildTls t i off true true x true strip = .ok (q, d)) (ho : p.Orderly) : q.Orderly := by
  obtain ⟨q', g1, g2, -, g3, g4, g5, g6⟩ := h.run strip
  obtain ⟨rfl, -⟩ := Prod.mk.inj (Except.ok.inj (g1.symm.trans hq))
  have k1 : q'.kind = p.kind := by rw [g2]
  have k2 : q'.dos = p.dos := by rw [g2]
  have k3 : q'.stub = p.stub := by rw [g2]
  have n1 : q'.nt.secAlign = p.nt.secAlign := by rw [g5]
  have n2 : q'.nt.fileAlign = p.nt.fileAlign := by rw [g5]
  have n3 : q'.nt.signature = p.nt.signature := by rw [g5]
  have n4 : q'.nt.magic = p.nt.magic := by rw [g5]
  have n5 : q'.nt.numRva = p.nt.numRva := by rw [g5]
  have n6 : q'.nt.chars = p.nt.chars := by rw [g5]
  have n7 : q'.nt.dllChars = p.nt.dllChars := by rw [g5]
  have hdr : ∀ d ∈ q'.nt.dirs, d.1 < 2 ^ 32 ∧ d.2 < 2 ^ 32 := fun d hd => by
    rw [g5] at hd
    rcases List.mem_or_eq_of_mem_set hd with g | rfl
    · exact ho.dirsRange d g
    · have hh := h.hosts.host _ _ h.sec
      have := (h.room.lt hh).1
      exact ⟨by dsimp only; omega, by dsimp only; omega⟩
  have hsec : ∀ y ∈ q'.secs, ∃ k u, p.secs[k]? = some u ∧ Host q' k y ∧ u.Resized y := fun y hy => by
    obtain ⟨k, hk⟩ := List.getElem?_of_mem hy
    have hlt := (List.getElem?_eq_some_iff.mp hk).1
    rw [g4] at hlt
    obtain ⟨v, v1, v2, -⟩ := g6 k _ (List.getElem?_eq_getElem hlt)
    have : v = y := Option.some.inj (v1.sec.symm.trans hk)
    subst this
    exact ⟨k, _, List.getElem?_eq_getElem hlt, v1, v2⟩
  have hsr : ∀ y ∈ q'.secs, y.InRange := fun y hy => by
    obtain ⟨k, u, u1, u2, u3⟩ := hsec y hy
    have hf := g3.fits y hy
    have g := ho.secRange u (List.mem_of_getElem? u1)
    rw [u3.1]
    exact ⟨g.name, hf.vsize, g.va, hf.rawSize, g.rawPtr, g.relPtr, g.linePtr, g.nReloc, g.nLine, g.chars⟩
  refine ⟨⟨⟨by rw [g5]; exact List.length_set.trans ho.sized.dirs.slots, by rw [n5]; exact ho.sized.dirs.count⟩,
      by rw [k3]; exact ho.sized.stub, by rw [g4]; exact ho.sized.secs, ?_⟩,
    ⟨by rw [k2]; exact ho.shaped.dos, fun x hx => (hsr x hx).name, fun x hx => (hsr x hx).rawSize⟩, by rw [k2]; exact ho.mz,
    by rw [k3]; exact ho.stub, n3.trans ho.sig, by rw [n4, k1]; exact ho.magic, ?_, hdr, by rw [n1, n2]; exact ho.rel, g3,
    ?_, hsr, fun y hy => ?_⟩
  · unfold Image.boundDir
    cases g : q'.nt.dirs[11]? with
    | none => decide
    | some x => exact (hdr x (List.mem_of_getElem? g)).2
  · rw [k1]
    exact ntRange_of ho.ntRange (by rw [g5]) (by rw [n6]; exact Nat.le_refl _) (by rw [n7]; exact id)
  · intro e
    rw [e] at g4
    exact ho.some (List.length_eq_zero_iff.mp g4.symm)
  · obtain ⟨k, u, u1, u2, u3⟩ := hsec y hy
    exact ⟨u3.2 (ho.sizes u (List.mem_of_getElem? u1)).1, u2.data, u2.raw⟩

theorem DirEdit.Fit.orderly {p q : Image} {e : DirEdit} {d : Nat × Nat} (h : e.Fit p) (hq : e.run p = .ok (q, d)) (ho : p.Orderly) :
    q.Orderly := by
  cases h with
  | other h => exact ho.step (h.stepped hq)
  | tls i off s t x strip h => exact h.orderly hq ho

theorem DirEdit.Fit.sec {p : Image} {e : DirEdit} (h : e.Fit p) : ∃ s, p.secs[e.sec]? = some s := by
  cases h with
  | other h =>
    obtain ⟨q, d, h1, -⟩ := h.run
    obtain ⟨s, hs, -⟩ := h.lasts h1
    exact ⟨s, hs.sec⟩
  | tls i off s t x strip h => exact ⟨s, h.sec⟩

/-- A later call leaves alone what an earlier one has written. -/
theorem DirEdit.Stays.step {e f : DirEdit} {p q r : Image} {d : Nat × Nat} (h : e.Stays p q) (hk : KeptBy p q) (hf : f.Fit q)
    (hr : f.run q = .ok (r, d)) (hc : e.Separate q f) : e.Stays p r := by
  cases h with
  | other he h =>
    refine .other he ?_
    cases hf with
    | tls i off s t x strip hf => exact h.tls he hf hr hc
    | other hf =>
      refine h.step hf hr ⟨hc.stores, fun hs => ?_, hc.raw⟩
      obtain ⟨s, L, x, id, dir, raw, h⟩ := h
      obtain ⟨u, u1, -⟩ := h.shown.sec
      have hp := hc.part
      rw [DirEdit.ranges_other he u1.sec, DirEdit.ranges_other hf.notTls (by rw [← hs]; exact u1.sec)] at hp
      have hp := hp _ List.mem_cons_self _ List.mem_cons_self
      unfold PE.Apart at hp
      rw [h.shown.kind] at hp
      dsimp only at hp
      omega
  | tls i off s t x strip hs hso hm h =>
    refine .tls i off s t x strip hs hso hm ?_
    cases hf with
    | tls i' off' s' t' x' strip' hf => exact absurd List.mem_cons_self (hc.stores dirTls List.mem_cons_self)
    | other hf =>
      obtain ⟨s', g1, g2⟩ := hk.vas _ _ hs
      have hp := hc.part
      have hrg : DirEdit.ranges q (.tls i t off true true x true strip) =
          [(s.va + ceilTo off p.kind.ptr, q.kind.sizeofTls), (t.start, t.raw.length), (t.callbacksRva, t.tableLen q.kind)] := by
        unfold DirEdit.ranges
        show (match q.secs[i]? with | none => _ | some s => _) = _
        rw [g1]
        dsimp only
        rw [g2, hk.kind]
      rw [hrg] at hp
      exact h.step hf hr (hc.stores _ List.mem_cons_self) (hp _ List.mem_cons_self) (hp _ (List.mem_cons_of_mem _ List.mem_cons_self))
        (hp _ (List.mem_cons_of_mem _ (List.mem_cons_of_mem _ List.mem_cons_self)))

theorem TlsInfo.SeenIn.realigned {t : TlsInfo} {p q r : Image} {loc a : Nat} (h : t.SeenIn p q loc) (hv : ValidTable r)
    (ha : q.Realignable a) (hr : q.realignFile a = .ok r) : t.SeenIn p r loc := by
  obtain ⟨a1, -, -⟩ := realign_secs ha hr
  have en : r.nt = { q.nt with fileAlign := a } := by rw [a1]
  have hh : ∀ (k : Nat) (u : Sec), Host q k u → ∃ u', Host r k u' ∧ u'.va = u.va ∧
      u'.memory r.nt.secAlign = u.memory q.nt.secAlign := fun k u hu => by
    obtain ⟨t', ht, eva, emem, -⟩ := realign_host ha hv hr hu
    exact ⟨t', ht, eva, by rw [en]; exact emem⟩
  exact ⟨by rw [a1]; exact h.kind, by rw [en]; exact h.base, by rw [en]; exact h.rva, by unfold Image.hasDir; rw [en]; exact h.has,
    h.struct.of_hosts hh, fun g => (h.raw g).of_hosts hh, fun g => (h.table g).of_hosts hh⟩

theorem DirEdit.Stays.realigned {e : DirEdit} {p q r : Image} {a : Nat} (h : e.Stays p q) (hv : ValidTable r) (ha : q.Realignable a)
    (hr : q.realignFile a = .ok r) (hl : e.ReadsRaw → e.sec + 1 ≠ q.secs.length) : e.Stays p r := by
  cases h with
  | other he h => exact .other he (h.realigned hv ha hr hl)
  | tls i off s t x strip hs hso hm h => exact .tls i off s t x strip hs hso hm (h.realigned hv ha hr)

/-- Each call finds the room it needs when it is made. -/
def FitAll (p : Image) : List DirEdit → Prop
  | [] => True
  | e :: es => e.Fit p ∧ ∀ q d, e.run p = .ok (q, d) → FitAll q es

theorem KeptBy.separate {p q : Image} (h : KeptBy p q) {a b : DirEdit} (ha : p.secs[a.sec]? ≠ none) (hb : p.secs[b.sec]? ≠ none)
    (hs : a.Separate p b) : a.Separate q b :=
  ⟨hs.stores, by rw [h.ranges ha, h.ranges hb]; exact hs.part, by rw [h.count]; exact hs.raw⟩

theorem KeptBy.ne_none {p q : Image} (h : KeptBy p q) {i : Nat} (hi : q.secs[i]? ≠ none) : p.secs[i]? ≠ none := fun g => by
  rw [List.getElem?_eq_none_iff] at g
  rw [← h.count] at g
  exact hi (List.getElem?_eq_none_iff.mpr g)

/-- The sections of the calls exist from the beginning. -/
theorem FitAll.secs {p : Image} {es : List DirEdit} (h : FitAll p es) : ∀ e ∈ es, p.secs[e.sec]? ≠ none := by
  induction es generalizing p with
  | nil => simp
  | cons a es ih =>
    intro e he
    rcases List.mem_cons.mp he with rfl | he
    · obtain ⟨s, hs⟩ := h.1.sec
      rw [hs]; simp
    · obtain ⟨q, d, h1, -⟩ := h.1.run
      exact (h.1.kept h1).ne_none (ih (h.2 q d h1) e he)

theorem DirEdit.Stays.steps {e : DirEdit} {p q r : Image} {es : List DirEdit} {ds : List (Nat × Nat)} (h : e.Stays p q) (hk : KeptBy p q)
    (hr : FitAll q es) (he : p.secs[e.sec]? ≠ none) (hc : ∀ f ∈ es, e.Separate p f) (hq : runEdits q es = .ok (r, ds)) : e.Stays p r := by
  induction es generalizing q ds with
  | nil =>
    obtain ⟨rfl, -⟩ := Prod.mk.inj (Except.ok.inj hq)
    exact h
  | cons f es ih =>
    obtain ⟨q1, d, ds', h1, h2, -⟩ := runEdits_cons hq
    have hf := hk.ne_none (hr.secs f List.mem_cons_self)
    exact ih (h.step hk hr.1 h1 (hk.separate he hf (hc f List.mem_cons_self))) (hk.trans (hr.1.kept h1)) (hr.2 q1 d h1)
      (fun g hg => hc g (List.mem_cons_of_mem _ hg)) h2

theorem runEdits_separate {p : Image} (es : List DirEdit) (hr : FitAll p es) (hc : es.Pairwise (DirEdit.Separate p)) :
    ∃ q ds, runEdits p es = .ok (q, ds) ∧ KeptBy p q ∧ (p.Orderly → q.Orderly) ∧ (ValidTable p → ValidTable q) ∧
      ∀ e ∈ es, ∃ p1, KeptBy p p1 ∧ e.Stays p1 q := by
  induction es generalizing p with
  | nil => exact ⟨p, [], rfl, KeptBy.refl p, id, id, by simp⟩
  | cons a es ih =>
    obtain ⟨q1, d, h1, h2⟩ := hr.1.run
    have hk := hr.1.kept h1
    have hp := List.pairwise_cons.mp hc
    have hsec := hr.secs
    obtain ⟨q, ds, g1, g2, g3, g4, g5⟩ := ih (hr.2 q1 d h1) (hp.2.imp_of_mem fun ha hb => hk.separate
      (hsec _ (List.mem_cons_of_mem _ ha)) (hsec _ (List.mem_cons_of_mem _ hb)))
    refine ⟨q, d :: ds, runEdits_of h1 g1, hk.trans g2, fun h => g3 (hr.1.orderly h1 h), fun _ => g4 h2, fun e he => ?_⟩
    rcases List.mem_cons.mp he with rfl | he
    · exact ⟨p, KeptBy.refl p, (hr.1.stays h1).steps hk (hr.2 q1 d h1) (hsec e List.mem_cons_self) hp.1 g1⟩
    · obtain ⟨p1, k1, k2⟩ := g5 e he
      exact ⟨p1, hk.trans k1, k2⟩

/-- C90, TLS included: if each call finds the room it needs when it is made, and the calls write to different addresses and store
    different directories, then in the end all directories are read: on the image, and on every image loaded from a file saved then.
    The raw data and the callback table of TLS may be in any section. Partial: see `DirEdit.Fit` for the calls covered. -/
theorem C90_tls_partial (p : Image) (es : List DirEdit) (hr : FitAll p es) (hc : es.Pairwise (DirEdit.Separate p)) :
    ∃ q ds, runEdits p es = .ok (q, ds) ∧ (ValidTable p → ValidTable q) ∧
      ∀ e ∈ es, e.Reads p q ∧ ∀ w, SavedLoaded q w → e.Reads p w := by
  obtain ⟨q, ds, h1, -, -, h2, h3⟩ := runEdits_separate es hr hc
  refine ⟨q, ds, h1, h2, fun e he => ?_⟩
  obtain ⟨p1, k, hl⟩ := h3 e he
  exact ⟨hl.now.from k.kind k.nt.base k.vas, fun w hw => (hl.saved hw).from k.kind k.nt.base k.vas⟩

/-- C90, TLS included: rebuilding, realigning, saving and loading. Partial: as before, and load config and bound imports must not be in
    the last section when the file is realigned (`C89_last_section`). -/
theorem C90_tls_workflow_partial (p : Image) (es : List DirEdit) (a : Nat) (hp : p.Orderly) (hr : FitAll p es)
    (hc : es.Pairwise (DirEdit.Separate p)) (hn : p.nt.numRva ≠ 0)
    (hl : ∀ e ∈ es, e.ReadsRaw → e.sec + 1 ≠ p.secs.length)
    (h1 : 512 ≤ a) (h2 : Pow2 a) (h3 : a ≤ p.nt.secAlign) (h4 : p.nt.fileAlign ≤ a) :
    ∃ q ds r, runEdits p es = .ok (q, ds) ∧ q.realignFile a = .ok r ∧ (∀ e ∈ es, e.Reads p r) ∧
      (∀ s ∈ r.secs, s.data.length = s.rawSize) ∧ (∀ w, SavedLoaded r w → ∀ e ∈ es, e.Reads p w) ∧
      ∀ (strip chg strict dbg : Bool) (pre : List (Nat × Nat)), pre.length = 16 → (∀ d ∈ pre, d.1 < 2 ^ 32) → r.Roomy strip chg →
        ∃ q2 out w, r.rebuildPe strip chg false = .ok (q2, out) ∧ load p.kind strict false dbg pre out = .ok w ∧
          ∀ e ∈ es, e.Reads p w := by
  obtain ⟨q, ds, g1, g2, g3, -, g5⟩ := runEdits_separate es hr hc
  have ho := g3 hp
  have ha : q.Realignable a := ho.realignable h1 h2 (by rw [g2.nt.sa]; exact h3) (by rw [g2.nt.fa]; exact h4)
  obtain ⟨r, h5, -⟩ := C53_realign_file q a ha.min ha.pow ha.le ha.sec
  obtain ⟨hro, hrd⟩ := ho.realigned ha h5
  have hlast : ∀ e ∈ es, ∃ p1, KeptBy p p1 ∧ e.Stays p1 r := fun e he => by
    obtain ⟨p1, k, hle⟩ := g5 e he
    exact ⟨p1, k, hle.realigned hro.table ha h5 (by rw [g2.count]; exact hl e he)⟩
  have hsave : ∀ w, SavedLoaded r w → ∀ e ∈ es, e.Reads p w := fun w hw e he => by
    obtain ⟨p1, k, hle⟩ := hlast e he
    exact (hle.saved hw).from k.kind k.nt.base k.vas
  refine ⟨q, ds, r, g1, h5, fun e he => ?_, hrd, hsave, fun strip chg strict dbg pre k1 k2 hroom => ?_⟩
  · obtain ⟨p1, k, hle⟩ := hlast e he
    exact hle.now.from k.kind k.nt.base k.vas
  · have hsv := hro.saveable hrd hroom
    have nr : r.nt = { q.nt with fileAlign := a } := by rw [(realign_secs ha h5).1]
    have kr : r.kind = p.kind := by rw [(realign_secs ha h5).1]; exact g2.kind
    obtain ⟨q2, out, e3⟩ := C18_completes_unsaved r strip chg hsv.sized hsv.table.fa
      (by rw [nr]; show q.nt.numRva ≠ 0; rw [g2.nt.nr]; exact hn) (fun s hs => by rw [hrd s hs]; omega) hroom.heads
    obtain ⟨w, e4, -⟩ := C19_save_load r q2 strip chg false strict dbg out pre k1 k2 hsv e3
    have hw : SavedLoaded r w := ⟨strip, chg, false, strict, dbg, pre, q2, out, k1, k2, hsv, e3, e4⟩
    rw [kr] at e4
    exact ⟨q2, out, w, e3, e4, hsave w hw⟩

/-! ### TLS first -/

/-- The call of `rebuild_tls` for section `i` leaves room for the call `f`: `f` is for the last section, which can grow; or the raw data of its
    section are not shortened and what `f` asks for is not more than these. Not for imports, which have to come first. -/
def DirEdit.AfterTls (p : Image) (i : Nat) (strip : Bool) (f : DirEdit) : Prop :=
  ¬ f.IsImports ∧ (f.sec + 1 = p.secs.length ∨ (f.sec ≠ i ∨ strip = false) ∧ ∀ s ∈ p.secs[f.sec]?, f.need p.kind ≤ s.data.length)

instance DirEdit.decAfterTls (p : Image) (i : Nat) (strip : Bool) (f : DirEdit) : Decidable (f.AfterTls p i strip) := by
  unfold DirEdit.AfterTls; infer_instance

theorem DirEdit.Ready.sec {p : Image} {e : DirEdit} (h : e.Ready p) : ∃ s, p.secs[e.sec]? = some s := (DirEdit.Fit.other h).sec

theorem DirEdit.Separate.clear {p : Image} {e f : DirEdit} (h : e.Separate p f) (he : e.Ready p) (hf : f.Ready p) :
    e.Clear p.kind p.secs.length f := by
  refine ⟨h.stores, fun hs => ?_, h.raw⟩
  obtain ⟨s, g⟩ := he.sec
  have hp := h.part
  rw [DirEdit.ranges_other he.notTls g, DirEdit.ranges_other hf.notTls (by rw [← hs]; exact g)] at hp
  have hp := hp _ List.mem_cons_self _ List.mem_cons_self
  unfold PE.Apart at hp
  dsimp only at hp
  omega

theorem DirEdit.AfterTls.grown {p : Image} {i : Nat} {strip : Bool} {f : DirEdit} (h : f.AfterTls p i strip) :
    f.sec ≠ i ∨ strip = false ∨ i + 1 = p.secs.length := by
  rcases h.2 with g | ⟨g | g, -⟩
  · by_cases e : f.sec = i
    · exact .inr (.inr (by rw [← e]; exact g))
    · exact .inl e
  · exact .inl g
  · exact .inr (.inl g)

theorem TlsReady.leaves {p q : Image} {i off : Nat} {s : Sec} {t : TlsInfo} {x : ExpandType} {strip : Bool} {d : Nat × Nat}
    (h : TlsReady p i off s t x) (hq : p.rebuildTls t i off true true x true strip = .ok (q, d)) {f : DirEdit} (hf : f.Ready p)
    (hc : DirEdit.Separate p (.tls i t off true true x true strip) f) (hl : f.AfterTls p i strip) : f.Ready q := by
  have hk : KeptBy p q := (DirEdit.Fit.tls i off s t x strip h).kept hq
  obtain ⟨q', g1, g2, -, g3, g4, g5, g6⟩ := h.run strip
  obtain ⟨rfl, -⟩ := Prod.mk.inj (Except.ok.inj (g1.symm.trans hq))
  obtain ⟨u, hu⟩ := hf.sec
  obtain ⟨v, v1, v2, -, -, v5⟩ := g6 _ u hu
  obtain ⟨w1, w2⟩ := v5 hl.grown
  have hp := hc.part
  have hrt : DirEdit.ranges p (.tls i t off true true x true strip) =
      [(s.va + ceilTo off p.kind.ptr, p.kind.sizeofTls), (t.start, t.raw.length), (t.callbacksRva, t.tableLen p.kind)] := by
    unfold DirEdit.ranges
    show (match p.secs[i]? with | none => _ | some s => _) = _
    rw [h.sec]
  rw [DirEdit.ranges_other hf.notTls hu, hrt] at hp
  refine hf.again hu v1 hk v2.va hl.1 (hl.2.imp id fun g => g.2 u hu) w1 fun o o1 o2 => w2 o ?_
  have p1 := hp _ List.mem_cons_self _ List.mem_cons_self
  have p2 := hp _ (List.mem_cons_of_mem _ List.mem_cons_self) _ List.mem_cons_self
  have p3 := hp _ (List.mem_cons_of_mem _ (List.mem_cons_of_mem _ List.mem_cons_self)) _ List.mem_cons_self
  unfold PE.Apart at p1 p2 p3
  unfold TlsInfo.Writes
  dsimp only at p1 p2 p3
  omega

theorem ReadyAll.fit {p : Image} {es : List DirEdit} (h : ReadyAll p es) : FitAll p es := by
  induction es generalizing p with
  | nil => trivial
  | cons a es ih => exact ⟨.other h.1, fun q d g => ih (h.2 q d g)⟩

theorem TlsReady.fitAll {p : Image} {i off : Nat} {s : Sec} {t : TlsInfo} {x : ExpandType} (strip : Bool) (h : TlsReady p i off s t x)
    (es : List DirEdit) (hr : ∀ e ∈ es, e.Ready p)
    (ht : ∀ f ∈ es, DirEdit.Separate p (.tls i t off true true x true strip) f ∧ f.AfterTls p i strip)
    (hc : es.Pairwise fun e f => e.Separate p f ∧ e.LeavesRoom p f) : FitAll p (.tls i t off true true x true strip :: es) := by
  refine ⟨.tls i off s t x strip h, fun q d hq => ReadyAll.fit (readyAll_of es (fun e he => h.leaves hq (hr e he) (ht e he).1 (ht e he).2) ?_)⟩
  have hk : KeptBy p q := (DirEdit.Fit.tls i off s t x strip h).kept hq
  obtain ⟨q', g1, g2, -, g3, g4, g5, g6⟩ := h.run strip
  obtain ⟨rfl, -⟩ := Prod.mk.inj (Except.ok.inj (g1.symm.trans hq))
  refine hc.imp_of_mem fun {e f} he hf hef => ⟨?_, fun hs => ?_⟩
  · rw [hk.kind, hk.count]; exact hef.1.clear (hr e he) (hr f hf)
  · obtain ⟨k1, k2⟩ := hef.2 hs
    refine ⟨k1, ?_⟩
    rw [hk.count, hk.kind]
    refine k2.imp id fun k => ⟨k.1, fun v hv => ?_⟩
    obtain ⟨u, hu⟩ := (hr f hf).sec
    obtain ⟨v', v1, v2, -, -, v5⟩ := g6 _ u hu
    have e1 : v' = v := Option.some.inj (v1.sec.symm.trans hv)
    subst e1
    exact Nat.le_trans (k.2 u hu) (v5 (ht f hf).2.grown).1

/-- C90: `rebuild_tls` first, then other calls, for the same or other sections: it is enough that there is room for each call alone, and that
    they leave room for each other. Then all calls succeed, and all directories are read. Partial: see `DirEdit.Fit` for the calls
    covered; no imports. -/
theorem C90_tls_room_partial (p : Image) (i off : Nat) (s : Sec) (t : TlsInfo) (x : ExpandType) (strip : Bool) (h : TlsReady p i off s t x)
    (es : List DirEdit) (hr : ∀ e ∈ es, e.Ready p)
    (ht : ∀ f ∈ es, DirEdit.Separate p (.tls i t off true true x true strip) f ∧ f.AfterTls p i strip)
    (hc : es.Pairwise fun e f => e.Separate p f ∧ e.LeavesRoom p f) :
    ∃ q ds, runEdits p (.tls i t off true true x true strip :: es) = .ok (q, ds) ∧ ValidTable q ∧
      q.getTls = .ok t ∧ (∀ w, SavedLoaded q w → w.getTls = .ok t) ∧
      ∀ e ∈ es, e.Reads p q ∧ ∀ w, SavedLoaded q w → e.Reads p w := by
  obtain ⟨q, ds, h1, h2, h3⟩ := C90_tls_partial p _ (h.fitAll strip es hr ht hc)
    (List.pairwise_cons.mpr ⟨fun f hf => (ht f hf).1, hc.imp fun g => g.1⟩)
  obtain ⟨g1, g2⟩ := h3 _ List.mem_cons_self
  exact ⟨q, ds, h1, h2 h.hosts.valid, g1, g2, fun e he => h3 e (List.mem_cons_of_mem _ he)⟩

/-! ### A case the theorems apply to -/

/-- Raw data in the first section, callbacks in the second. -/
def twoTls : TlsInfo :=
  { start := 0x21B0, stop := 0x21B8, index := 0x21C0, callbacksRva := 0x2210, zeroFill := 3, chars := 0, raw := [1, 2, 3, 4, 5, 6, 7, 8],
    callbacks := [0x2204, 0x2208] }

def twoMore : List DirEdit :=
  [.config 0 demoConfig 18 true true true false, .bound 0 demoBound 202 true false,
   .relocs 0 [⟨0x1000, [⟨4, 3⟩, ⟨8, 3⟩, ⟨12, 3⟩]⟩, ⟨0x2000, [⟨0, 10⟩, ⟨8, 10⟩]⟩] 290 true false,
   .exports 1 demoExportInfo demoExports 254 true true, .resources 1 demoRes 400 true false]

theorem two_hosts : AllHosts twoImage := by
  refine ⟨two_saveable.table, fun j s hj => ?_, by decide +kernel⟩
  match j, hj with
  | 0, hj => cases hj; exact two_first
  | 1, hj => cases hj; exact two_second
  | j + 2, hj => cases hj

theorem twoTls_ready : TlsReady twoImage 0 398 { tinySec 512 0x2000 512 0 with data := zeros 512 } twoTls .raw := by
  refine ⟨two_hosts, rfl, ⟨rfl, by decide⟩, by decide, by decide, by decide +kernel, by decide +kernel, ?_, ?_, fun _ => ?_, fun _ => ?_,
    by decide +kernel, by decide +kernel, by decide +kernel⟩
  · constructor <;> decide
  · constructor <;> decide +kernel
  · exact ⟨0, _, rfl, by unfold Sec.Covers; decide +kernel, by decide +kernel⟩
  · exact ⟨1, _, rfl, by unfold Sec.Covers; decide +kernel, by decide +kernel⟩

theorem twoMore_ready : ∀ e ∈ twoMore, e.Ready twoImage := fun e he => twoEdits_ready e (by
  unfold twoMore at he
  unfold twoEdits
  simp only [List.mem_cons, List.not_mem_nil, or_false] at he ⊢
  rcases he with h | h | h | h | h <;> simp only [h, true_or, or_true])

theorem twoMore_separate : (∀ f ∈ twoMore, DirEdit.Separate twoImage (.tls 0 twoTls 398 true true .raw true false) f ∧
    f.AfterTls twoImage 0 false) ∧ twoMore.Pairwise fun e f => e.Separate twoImage f ∧ e.LeavesRoom twoImage f := by
  decide +kernel

/-- TLS in the first section, with callbacks in the second one, and five other directories; realigned, saved and loaded: all are read. -/
example : ∃ q ds r q2 out w, runEdits twoImage (.tls 0 twoTls 398 true true .raw true false :: twoMore) = .ok (q, ds) ∧
    q.realignFile 512 = .ok r ∧ r.rebuildPe false true false = .ok (q2, out) ∧ load .pe32 true false true zeroDirs out = .ok w ∧
    q.getTls = .ok twoTls ∧ w.getTls = .ok twoTls ∧ (∀ e ∈ twoMore, e.Reads twoImage q) ∧ ∀ e ∈ twoMore, e.Reads twoImage w := by
  have hra := twoTls_ready.fitAll false twoMore twoMore_ready twoMore_separate.1 twoMore_separate.2
  have hcl := List.pairwise_cons.mpr ⟨fun f hf => (twoMore_separate.1 f hf).1, twoMore_separate.2.imp fun g => g.1⟩
  obtain ⟨q, ds, r, h1, h2, -, -, -, h3⟩ := C90_tls_workflow_partial twoImage _ 512 two_saveable.orderly hra hcl (by decide)
    (by decide) (by decide) ⟨9, by decide, rfl⟩ (by decide) (by decide)
  obtain ⟨q1, ds1, e1, -, e2, -, e3⟩ := C90_tls_room_partial twoImage 0 398 _ twoTls .raw false twoTls_ready twoMore twoMore_ready
    twoMore_separate.1 twoMore_separate.2
  rw [h1] at e1
  obtain ⟨rfl, rfl⟩ := Prod.mk.inj (Except.ok.inj e1)
  obtain ⟨⟨q', ds'⟩, h4, h5⟩ := exists_of_okAnd (x := runEdits twoImage (.tls 0 twoTls 398 true true .raw true false :: twoMore))
    (f := fun x => okAnd (x.1.realignFile 512) roomyB) (by decide +kernel)
  rw [h1] at h4
  obtain ⟨rfl, rfl⟩ := Prod.mk.inj (Except.ok.inj h4)
  obtain ⟨r', h6, h7⟩ := exists_of_okAnd h5
  rw [h2] at h6
  cases Except.ok.inj h6
  obtain ⟨q2, out, w, h8, h9, h10⟩ := h3 false true true true zeroDirs rfl (by decide) (roomy_of_check h7)
  exact ⟨q, ds, r, q2, out, w, h1, h2, h8, h9, e2, h10 _ List.mem_cons_self, fun e he => (e3 e he).1,
    fun e he => h10 e (List.mem_cons_of_mem _ he)⟩

end PE
