/-
C43 (TLS round trip) and C67 (safety and contents of `get_tls_info`).
-/
import Verif.Lemmas.Tls
import Verif.Props.LoadConfig
import Verif.Props.VersionSafe

namespace PE

theorem rvaOrZero_ok {q : Image} {rva : Nat} (h : rva < 2 ^ 32) (hb : q.nt.imageBase + 2 ^ 32 ≤ 2 ^ 64) :
    q.rvaOrZero (if rva ≠ 0 then q.nt.imageBase + rva else 0) = .ok rva := by
  unfold Image.rvaOrZero
  by_cases h0 : rva = 0
  · rw [if_neg (by simp [h0]), h0]
  · rw [if_pos (show (if rva ≠ 0 then q.nt.imageBase + rva else 0) ≠ 0 by rw [if_pos h0]; omega), if_pos h0]
    exact vaToRva_ok h hb

theorem vaOrZero_ok {q : Image} {rva : Nat} (h : rva ≠ 0 → q.nt.imageBase + rva < 256 ^ q.kind.ptr) :
    q.vaOrZero rva = .ok (if rva ≠ 0 then q.nt.imageBase + rva else 0) := by
  unfold Image.vaOrZero
  by_cases h0 : rva = 0
  · rw [if_neg (by simp [h0]), if_neg (by simp [h0])]
  · rw [if_pos h0, if_pos h0]; exact rvaToVa_ok (h h0)

/-- The structure that `rebuild_tls` writes. -/
def TlsInfo.struct (t : TlsInfo) (p : Image) : Bytes :=
  encFields [(p.kind.ptr, if t.start ≠ 0 then p.nt.imageBase + t.start else 0),
    (p.kind.ptr, if t.stop ≠ 0 then p.nt.imageBase + t.stop else 0), (p.kind.ptr, p.nt.imageBase + t.index),
    (p.kind.ptr, if t.callbacksRva ≠ 0 then p.nt.imageBase + t.callbacksRva else 0), (4, t.zeroFill), (4, t.chars)]

/-- The image `r` has all that `rebuild_tls` wrote into an image like `p`: the directory at `loc`, the raw data, the table of callbacks. -/
structure TlsInfo.SeenIn (t : TlsInfo) (p r : Image) (loc : Nat) : Prop where
  kind : r.kind = p.kind
  base : r.nt.imageBase = p.nt.imageBase
  rva : r.nt.getDirRva dirTls = .ok loc
  has : r.hasDir dirTls = .ok (decide (loc ≠ 0))
  struct : Seen r loc (t.struct p)
  raw : t.start ≠ 0 → Seen r t.start t.raw
  table : t.callbacksRva ≠ 0 → Seen r t.callbacksRva (t.table p)

theorem TlsInfo.struct_length (t : TlsInfo) (p : Image) : (t.struct p).length = p.kind.sizeofTls := by
  unfold TlsInfo.struct
  rw [encFields_length]
  cases p.kind <;> rfl

/-- … and then it is read. -/
theorem TlsInfo.SeenIn.read {t : TlsInfo} {p q : Image} {rva : Nat} (h : t.SeenIn p q rva) (hs : t.Sound) (hmap : t.Mapped p) :
    q.getTls = .ok t := by
  have hqk := h.kind
  have hqb := h.base
  have hpc := p.kind.ptr_cases
  have hst := hs.stop
  have htl : t.callbacksRva ≠ 0 → t.tableLen p.kind = p.kind.ptr * (t.callbacks.length + 1) := fun h => by
    unfold TlsInfo.tableLen; rw [if_neg h]
  have hpm : p.kind.ptr ≤ p.kind.ptr * (t.callbacks.length + 1) := Nat.le_mul_of_pos_right _ (by omega)
  have hrva : rva ≠ 0 := by
    obtain ⟨k, u, o, h1, h2, -⟩ := h.struct
    have := h1.pos
    omega
  have hlen32 : t.callbacksRva ≠ 0 → t.callbacksRva + p.kind.ptr * (t.callbacks.length + 1) < 2 ^ 32 := by
    intro h0
    obtain ⟨u, m, o, w1, w2, w3, w4⟩ := (h.table h0).window
    have := w4.le
    have := w1.fin
    rw [TlsInfo.table_length] at *
    omega
  have hfields := tlsFields_rd p.kind (a := if t.start ≠ 0 then p.nt.imageBase + t.start else 0)
    (b := if t.stop ≠ 0 then p.nt.imageBase + t.stop else 0) (c := p.nt.imageBase + t.index)
    (d := if t.callbacksRva ≠ 0 then p.nt.imageBase + t.callbacksRva else 0) (e := t.zeroFill) (f := t.chars)
    (by have := hmap.stop; split <;> omega) (by have := hmap.stop; split <;> omega) hmap.index
    (by split
        · next h => have := hmap.table; rw [htl h] at this; omega
        · exact Nat.pow_pos (by omega)) hs.zeroFill hs.chars
  generalize hS : encFields _ = S at hfields
  have hS' : t.struct p = S := hS
  dsimp only at hfields
  obtain ⟨f0, f1, f2, f3, f4, f5, f6⟩ := hfields
  have hread := h.struct.read true
  rw [hS', f0] at hread
  have hb64 : q.nt.imageBase + 2 ^ 32 ≤ 2 ^ 64 := by rw [hqb]; exact hmap.base
  have hstart32 : t.start < 2 ^ 32 := by have := hs.stop32; omega
  unfold Image.getTls
  rw [h.has, ok_bind, throwIf_neg (by
    rw [decide_eq_true hrva]
    simp), ok_bind, h.rva, ok_bind, hqk, hread, ok_bind]
  dsimp only
  rw [f1, f2, f3, f4, f5, f6]
  have hfix : q.tlsFixed (if t.start ≠ 0 then p.nt.imageBase + t.start else 0)
      (if t.stop ≠ 0 then p.nt.imageBase + t.stop else 0) =
      (if t.start ≠ 0 then p.nt.imageBase + t.start else 0, if t.stop ≠ 0 then p.nt.imageBase + t.stop else 0) := by
    unfold Image.tlsFixed
    by_cases heq : (if t.stop ≠ 0 then p.nt.imageBase + t.stop else 0) =
        (if t.start ≠ 0 then p.nt.imageBase + t.start else 0)
    · rw [if_pos heq]
      by_cases h0 : t.start = 0
      · have hraw := (hs.noData h0).1
        have hstop : t.stop = 0 := by rw [hst, h0, hraw]; rfl
        rw [h0, hstop]
        simp only [ne_eq, not_true, if_false]
        split <;> rfl
      · have h1 : t.stop ≠ 0 := by omega
        rw [if_pos h1, ← hqb, vaToRva_ok hs.stop32 hb64]
    · rw [if_neg heq]
  rw [hfix]
  dsimp only
  have hcheck : q.tlsCheck (if t.start ≠ 0 then p.nt.imageBase + t.start else 0)
      (if t.stop ≠ 0 then p.nt.imageBase + t.stop else 0) = .ok () := by
    unfold Image.tlsCheck
    by_cases h0 : t.start = 0
    · rw [if_neg (by simp [h0])]
    · have h1 : t.stop ≠ 0 := by omega
      rw [if_pos h0, if_pos (by omega), if_pos h1]
      rw [← hqb, vaToRva_ok hstart32 hb64, ok_bind, hqb]
      have hdiff : (256 ^ q.kind.ptr + (p.nt.imageBase + t.stop) - (p.nt.imageBase + t.start)) % 256 ^ q.kind.ptr =
          t.raw.length := by
        have := hmap.stop
        rw [hqk, show 256 ^ p.kind.ptr + (p.nt.imageBase + t.stop) - (p.nt.imageBase + t.start) =
          256 ^ p.kind.ptr + t.raw.length by omega, Nat.add_mod_left, Nat.mod_eq_of_lt (by omega)]
      rw [hdiff]
      by_cases hr : t.raw = []
      · obtain ⟨u, m, o, w1, w2, w3, w4⟩ := (h.raw h0).window
        rw [w2, w1.len true o w3, ok_bind, throwIf_neg (by rw [hr]; simp)]
      · obtain ⟨u, m, o, w1, w2, w3, w4⟩ := (h.raw h0).window
        rw [w2, w1.len true o w3, ok_bind, throwIf_neg (by have := w4.le; omega)]
  rw [hcheck, ok_bind, ← hqb, rvaOrZero_ok hstart32 hb64, ok_bind, rvaOrZero_ok hs.stop32 hb64, ok_bind]
  have hix := rvaOrZero_ok (q := q) hs.index.2 hb64
  rw [if_pos (by have := hs.index.1; omega)] at hix
  rw [hix, ok_bind, rvaOrZero_ok hs.table32 hb64, ok_bind]
  have hraw : q.tlsRaw (if t.start ≠ 0 then q.nt.imageBase + t.start else 0)
      (if t.stop ≠ 0 then q.nt.imageBase + t.stop else 0) = .ok t.raw := by
    unfold Image.tlsRaw
    by_cases hr : t.raw = []
    · rw [hr]
      rw [if_neg]
      rintro ⟨ha, hb⟩
      apply hb
      rw [hst, hr]
      rfl
    · have hrl : 0 < t.raw.length := List.length_pos_iff.mpr hr
      have h0 : t.start ≠ 0 := fun h0 => hr (hs.noData h0).1
      have h1 : t.stop ≠ 0 := by omega
      rw [if_pos h0, if_pos h1, if_pos (by omega)]
      have hdiff : (256 ^ q.kind.ptr + (q.nt.imageBase + t.stop) - (q.nt.imageBase + t.start)) % 256 ^ q.kind.ptr =
          t.raw.length := by
        have := hmap.stop
        rw [hqk, show 256 ^ p.kind.ptr + (q.nt.imageBase + t.stop) - (q.nt.imageBase + t.start) =
          256 ^ p.kind.ptr + t.raw.length by omega, Nat.add_mod_left, Nat.mod_eq_of_lt (by omega)]
      have hr32 := hs.stop32
      rw [hdiff, vaToRva_ok hstart32 hb64, ok_bind, w32, Nat.mod_eq_of_lt (by omega)]
      obtain ⟨u, m, o, w1, w2, w3, w4⟩ := (h.raw h0).window
      rw [w2, w1.ptr true o w3, ok_bind, at_readN w4]
  rw [hraw, ok_bind]
  have hcbs : q.tlsCallbacks t.callbacksRva
      (if t.callbacksRva ≠ 0 then q.nt.imageBase + t.callbacksRva else 0) = .ok t.callbacks := by
    unfold Image.tlsCallbacks
    by_cases h0 : t.callbacksRva = 0
    · rw [if_neg (by simp [h0]), hs.noTable h0]
    · rw [if_pos h0, if_pos h0]
      have hcell : ∀ (j v : Nat), (t.callbacks.map (p.nt.imageBase + ·) ++ [0])[j]? = some v → v < 256 ^ p.kind.ptr →
          q.vaToRva ((q.nt.imageBase + t.callbacksRva + (0 + q.kind.ptr * j)) % 256 ^ q.kind.ptr) =
            .ok (t.callbacksRva + p.kind.ptr * j) ∧
          q.readInt q.kind.ptr (t.callbacksRva + p.kind.ptr * j) .virt true = .ok v := by
        intro j v hj hv
        have hjl : j < t.callbacks.length + 1 := by
          have := (List.getElem?_eq_some_iff.mp hj).1
          simpa using this
        have hmul : p.kind.ptr * j + p.kind.ptr ≤ p.kind.ptr * (t.callbacks.length + 1) := by
          rw [← Nat.mul_succ]; exact Nat.mul_le_mul_left _ (by omega)
        have htb := hmap.table
        rw [htl h0] at htb
        have := hlen32 h0
        constructor
        · rw [hqk, Nat.zero_add, hqb, Nat.mod_eq_of_lt (by omega), Nat.add_assoc, ← hqb]
          exact vaToRva_ok (by omega) hb64
        · have hpart : At (t.table p) (p.kind.ptr * j) (leBytes p.kind.ptr v) := by
            refine ⟨?_, ?_⟩
            · rw [TlsInfo.table_length, leBytes_length]; omega
            · have := slice_encVals (w := p.kind.ptr) [] hj
              rw [List.append_nil] at this
              rw [leBytes_length]
              exact this
          have hrd := ((h.table h0).part hpart (by rw [leBytes_length]; omega)).read true
          rw [leBytes_length] at hrd
          unfold Image.readInt
          rw [hqk, hrd, ok_bind, fromLE_leBytes, Nat.mod_eq_of_lt hv]
      refine tlsLoop_eq t.callbacks 4294967296 0 ?_ ?_ ?_ ?_
      · have := hlen32 h0
        have : t.callbacks.length + 1 ≤ p.kind.ptr * (t.callbacks.length + 1) := Nat.le_mul_of_pos_left _ (by omega)
        omega
      · rw [hqk]; have := hlen32 h0; omega
      · intro j r hj
        obtain ⟨cb1, cb2, cb3⟩ := hmap.callbacks r (List.mem_of_getElem? hj)
        obtain ⟨e1, e2⟩ := hcell j (p.nt.imageBase + r) (by
          have hjl := (List.getElem?_eq_some_iff.mp hj).1
          rw [List.getElem?_append_left (by simpa using hjl), List.getElem?_map, hj]; rfl) cb3
        refine ⟨_, _, e1, e2, by omega, ?_⟩
        rw [← hqb]
        exact vaToRva_free cb1 hb64
      · obtain ⟨e1, e2⟩ := hcell t.callbacks.length 0 (by simp) (Nat.pow_pos (by omega))
        exact ⟨_, e1, e2⟩
  rw [hcbs, ok_bind]

/-- `rebuild_tls` with all parts written: what is there afterwards. -/
theorem tls_lasting (p : Image) (i off : Nat) (s : Sec) (t : TlsInfo) (e : ExpandType) (strip : Bool)
    (hall : AllHosts p) (hsec : p.secs[i]? = some s) (hdirs : p.nt.DirsOk) (hnum : dirTls < p.nt.numRva)
    (hoff : off < 2 ^ 32 - 8) (pos : Nat) (hpos : pos = ceilTo off p.kind.ptr)
    (hroom : HostRoom p i s (pos + p.kind.sizeofTls)) (hpage : pos + p.kind.sizeofTls ≤ s.span p.nt.secAlign)
    (hs : t.Sound) (hmap : t.Mapped p)
    (hdata : t.start ≠ 0 → RoomAt p (decide (e = .raw)) t.start t.raw.length)
    (htable : t.callbacksRva ≠ 0 → RoomAt p true t.callbacksRva (p.kind.ptr * (t.callbacks.length + 1)))
    (hd1 : Apart (s.va + pos) p.kind.sizeofTls t.start t.raw.length)
    (hd2 : Apart (s.va + pos) p.kind.sizeofTls t.callbacksRva (t.tableLen p.kind))
    (hd3 : Apart t.start t.raw.length t.callbacksRva (t.tableLen p.kind)) :
    ∃ q, p.rebuildTls t i off true true e true strip = .ok (q, (s.va + pos, p.kind.sizeofTls)) ∧ q = { p with secs := q.secs, nt := q.nt } ∧
      t.SeenIn p q (s.va + pos) ∧ q.getTls = .ok t ∧
      ValidTable q ∧ q.kind = p.kind ∧ q.hdrData = p.hdrData ∧ q.secs.length = p.secs.length ∧
      q.nt = { p.nt with dirs := p.nt.dirs.set dirTls (s.va + pos, p.kind.sizeofTls) } ∧
      (∀ (k : Nat) (u : Sec) (o n : Nat), p.secs[k]? = some u → 0 < n → o + n ≤ u.data.length →
        Apart (u.va + o) n (s.va + pos) p.kind.sizeofTls → Apart (u.va + o) n t.start t.raw.length →
        Apart (u.va + o) n t.callbacksRva (t.tableLen p.kind) →
        ∀ hdrs, q.readT n (u.va + o) .virt hdrs = .ok (slice u.data o n)) ∧
      ∀ (k : Nat) (u : Sec), p.secs[k]? = some u → ∃ v, Host q k v ∧ u.Resized v ∧
        (u.memory p.nt.secAlign).length ≤ (v.memory p.nt.secAlign).length ∧
        (∀ o, ¬ t.Writes p.kind (s.va + pos) (u.va + o) → (v.memory p.nt.secAlign).getD o 0 = (u.memory p.nt.secAlign).getD o 0) ∧
        (k ≠ i ∨ strip = false ∨ i + 1 = p.secs.length → u.data.length ≤ v.data.length ∧
          ∀ o, ¬ t.Writes p.kind (s.va + pos) (u.va + o) → v.data.getD o 0 = u.data.getD o 0) := by
  have hh := hall.host i s hsec
  have hv := hall.valid
  have hsol := Solid.of_all hall
  have hm := List.mem_of_getElem? hsec
  have hlt : i < p.secs.length := (List.getElem?_eq_some_iff.mp hsec).1
  have hpc := p.kind.ptr_cases
  have hst := hs.stop
  have hs1 : off ≤ pos := by rw [hpos]; exact ceilTo_ge (by omega)
  have hs2 : pos < off + 8 := by
    rw [hpos]; have := ceilTo_lt (x := off) (a := p.kind.ptr) (by omega); omega
  have hau : alignUp off p.kind.ptr = pos := by
    rw [hpos] at hs2 ⊢; exact alignUp_of_le p.kind.ptr_pow2 (by omega) (by omega)
  have hfin := (hv.fits s hm).fin
  have hsz : p.kind.sizeofTls = 24 ∨ p.kind.sizeofTls = 40 := by cases p.kind <;> simp [Kind.sizeofTls]
  have hneed : w32 (p.kind.sizeofTls + pos) = pos + p.kind.sizeofTls := by rw [w32, Nat.mod_eq_of_lt (by omega)]; omega
  have htl : t.callbacksRva ≠ 0 → t.tableLen p.kind = p.kind.ptr * (t.callbacks.length + 1) := fun h => by
    unfold TlsInfo.tableLen; rw [if_neg h]
  have hpm : p.kind.ptr ≤ p.kind.ptr * (t.callbacks.length + 1) := Nat.le_mul_of_pos_right _ (by omega)
  -- the structure
  have hstruct : p.tlsStruct t = .ok (encFields [(p.kind.ptr, if t.start ≠ 0 then p.nt.imageBase + t.start else 0),
      (p.kind.ptr, if t.stop ≠ 0 then p.nt.imageBase + t.stop else 0), (p.kind.ptr, p.nt.imageBase + t.index),
      (p.kind.ptr, if t.callbacksRva ≠ 0 then p.nt.imageBase + t.callbacksRva else 0),
      (4, if t.start ≠ 0 then t.zeroFill else 0), (4, t.chars)]) := by
    unfold Image.tlsStruct
    rw [vaOrZero_ok (fun _ => by have := hmap.stop; omega), ok_bind, vaOrZero_ok (fun _ => hmap.stop), ok_bind,
      rvaToVa_ok hmap.index, ok_bind, vaOrZero_ok (fun h => by have := hmap.table; rw [htl h] at this; omega), ok_bind]
  have hzf : (if t.start ≠ 0 then t.zeroFill else 0) = t.zeroFill := by
    by_cases h0 : t.start = 0
    · rw [if_neg (by simp [h0]), (hs.noData h0).2]
    · rw [if_pos h0]
  rw [hzf] at hstruct
  have hfields := tlsFields_rd p.kind (a := if t.start ≠ 0 then p.nt.imageBase + t.start else 0)
    (b := if t.stop ≠ 0 then p.nt.imageBase + t.stop else 0) (c := p.nt.imageBase + t.index)
    (d := if t.callbacksRva ≠ 0 then p.nt.imageBase + t.callbacksRva else 0) (e := t.zeroFill) (f := t.chars)
    (by have := hmap.stop; split <;> omega) (by have := hmap.stop; split <;> omega) hmap.index
    (by split
        · next h => have := hmap.table; rw [htl h] at this; omega
        · exact Nat.pow_pos (by omega)) hs.zeroFill hs.chars
  generalize hS : encFields _ = S at hstruct hfields
  dsimp only at hfields
  obtain ⟨f0, f1, f2, f3, f4, f5, f6⟩ := hfields
  -- writing the structure
  have hg := growTo_ge s.data (pos + p.kind.sizeofTls)
  have hgl := growTo_length s.data (pos + p.kind.sizeofTls)
  have hds := hsol.data s hm
  have hsmall := hsol.loose.small s hm
  have hle : (growTo s.data (pos + p.kind.sizeofTls)).length ≤ s.span p.nt.secAlign := by omega
  have hcl : ceilTo (growTo s.data (pos + p.kind.sizeofTls)).length p.nt.secAlign ≤ s.span p.nt.secAlign :=
    ceilTo_least hv.sa.pos (ceilTo_dvd _ _) hle
  have hL1 := (hsol.at i).setData hsec (d := growTo s.data (pos + p.kind.sizeofTls)) hg.2 (fun h => absurd rfl h)
    ⟨by omega, by omega⟩ (fun _ => hle)
  have hsol1 : Solid { p with secs := p.secs.set i { s with data := growTo s.data (pos + p.kind.sizeofTls) } } := by
    refine ⟨hL1.change 0 (fun u hu => ?_), fun u hu => ?_⟩
    · rw [List.getElem?_set_self hlt] at hu
      rw [← Option.some.inj hu]; exact hle
    · rcases List.mem_or_eq_of_mem_set hu with hu | hu
      · exact hsol.data u hu
      · rw [hu]; exact hle
  have hgrow1 : Grows p { p with secs := p.secs.set i { s with data := growTo s.data (pos + p.kind.sizeofTls) } } :=
    Grows.set hsec rfl (Nat.le_refl _) hg.2
  have hkeep1 : ∀ r x, HasAt p r x →
      HasAt { p with secs := p.secs.set i { s with data := growTo s.data (pos + p.kind.sizeofTls) } } r x := by
    intro r x hx
    refine hx.set hsec rfl (fun o _ ha => ⟨?_, ?_⟩)
    · have := ha.le
      show _ ≤ (growTo s.data (pos + p.kind.sizeofTls)).length
      omega
    · show slice (growTo s.data (pos + p.kind.sizeofTls)) o x.length = x
      rw [slice_growTo ha.le]; exact ha.2
  have hput := hsol1.patch (List.getElem?_set_self hlt) (rva := s.va + pos) (x := S) (by show s.va ≤ _; omega)
    (by show s.va + pos - s.va + _ ≤ (growTo s.data (pos + p.kind.sizeofTls)).length; omega)
  dsimp only at hput
  rw [List.set_set, show s.va + pos - s.va = pos by omega] at hput
  have hwrite : writeAt (growTo s.data (pos + p.kind.sizeofTls)) pos S =
      .ok (patch (growTo s.data (pos + p.kind.sizeofTls)) pos S) := writeAt_ok (by omega)
  generalize hp2 : ({ p with secs := p.secs.set i { s with
    data := patch (growTo s.data (pos + p.kind.sizeofTls)) pos S } } : Image) = p2 at hput
  have hg2 : Grows p p2 := hgrow1.trans hput.grows
  -- the raw data
  obtain ⟨q3, d1, d2, d3, d4, d5, d6⟩ := tlsPutData_ok (e := e) hput.solid hs (fun h => (hdata h).grows hg2)
  have hg3 : Grows p q3 := hg2.trans d3
  have hk3 : q3.kind = p.kind := hg3.kind
  have hnt3 : q3.nt = p.nt := hg3.nt
  have hmap3 : t.Mapped q3 := by
    refine ⟨?_, ?_, ?_, ?_, ?_⟩ <;> simp only [hnt3, hk3]
    · exact hmap.base
    · exact hmap.stop
    · exact hmap.index
    · exact hmap.table
    · exact hmap.callbacks
  -- the callbacks
  have hlen32 : t.callbacksRva ≠ 0 → t.callbacksRva + p.kind.ptr * (t.callbacks.length + 1) < 2 ^ 32 := by
    intro h
    obtain ⟨j, u, u1, ⟨u2, u2'⟩, u3⟩ := htable h
    have hsu := hsol.loose.small u (List.mem_of_getElem? u1)
    split at u3
    · have := ceilTo_ge (x := t.callbacksRva - u.va + p.kind.ptr * (t.callbacks.length + 1)) hv.sa.pos
      omega
    · have := ceilTo_ge (x := u.data.length) hv.sa.pos
      omega
  have hlenk : q3.kind.ptr * (t.callbacks.length + 1) < 2 ^ 32 := by
    rw [hk3]
    by_cases h0 : t.callbacksRva = 0
    · rw [hs.noTable h0, List.length_nil]; omega
    · have := hlen32 h0; omega
  obtain ⟨q4, c1, c2, c3, c4, c5, c6⟩ := tlsPutCallbacks_ok d2 hmap3 hlenk (fun h => by
    rw [hk3]; exact (htable h).grows hg3)
  rw [hk3] at c5 c6
  have hg4 : Grows p q4 := hg3.trans c3
  have hk4 : q4.kind = p.kind := hg4.kind
  have hnt4 : q4.nt = p.nt := hg4.nt
  have hS4 : HasAt q4 (s.va + pos) S := by
    refine c5 _ _ (d5 _ _ hput.has ?_) ?_ <;> rw [f0]
    · exact hd1
    · exact hd2
  have hR4 : t.raw ≠ [] → HasAt q4 t.start t.raw := fun h => c5 _ _ (d4 h) hd3
  have hC4 : t.callbacksRva ≠ 0 → HasAt q4 t.callbacksRva (t.table q3) := c4
  -- the end
  obtain ⟨s4, s41, s42, s43, s44⟩ := hg4.secs i s hsec
  have hne4 : s4.data ≠ [] := by
    intro h0
    obtain ⟨s2, s21, s22, s23, s24⟩ := (d3.trans c3).secs i _ (by
      rw [← hp2]; exact List.getElem?_set_self hlt)
    rw [s41] at s21
    rw [← Option.some.inj s21, h0] at s24
    have := patch_length (b := growTo s.data (pos + p.kind.sizeofTls)) (d := S) (off := pos) (by omega)
    dsimp only at s24
    rw [this, List.length_nil] at s24
    omega
  obtain ⟨q, r1, r2, r3, r4, r5, r6, -, r7, r8, r9, hrest, r10⟩ := c2.finish s41 hne4 (by rw [hnt4]; exact hdirs)
    (id := dirTls) (by rw [hnt4]; exact hnum) (s.va + pos, p.kind.sizeofTls) strip
  have hqk : q.kind = p.kind := r3.trans hk4
  have hqb : q.nt.imageBase = p.nt.imageBase := by rw [r6, hnt4]
  have hwva : w32 (s4.va + pos) = s.va + pos := by rw [s42, w32, Nat.mod_eq_of_lt (by omega)]
  have hst1 : Still i p { p with secs := p.secs.set i { s with data := growTo s.data (pos + p.kind.sizeofTls) } } (fun _ => False) :=
    Still.set hsec ⟨rfl, id⟩ hg.2 (fun g => absurd rfl g) fun o _ => by
      show (growTo s.data (pos + p.kind.sizeofTls)).getD o 0 = _
      rw [growTo_eq, getD_append_zeros]
  have hst4 : Still i p q4 (t.Writes p.kind (s.va + pos)) := by
    have h2 := hst1.trans (hput.still i) (T := t.Writes p.kind (s.va + pos)) (fun _ g => g.elim)
      (fun a g => .inl (by rw [f0] at g; exact g))
    have h3 := h2.trans (d6 i) (T := t.Writes p.kind (s.va + pos)) (fun _ g => g) (fun a g => .inr (.inl g))
    exact h3.trans (c6 i) (fun _ g => g) (fun a g => .inr (.inr g))
  have hsa : q.nt.secAlign = p.nt.secAlign := by rw [r6, hnt4]
  have hhosts : ∀ (k : Nat) (u4 : Sec), q4.secs[k]? = some u4 → ∃ v, Host q k v ∧ u4.Resized v ∧
      (∃ z, v.memory q.nt.secAlign = u4.data ++ zeros z) ∧ u4.span p.nt.secAlign ≤ (v.memory q.nt.secAlign).length ∧
      (k ≠ i ∨ strip = false ∨ i + 1 = q4.secs.length → v.data = u4.data) := by
    intro k u4 h4
    have hkl : k < p.secs.length := by rw [← hg4.count]; exact (List.getElem?_eq_some_iff.mp h4).1
    have hk := List.getElem?_eq_getElem hkl
    obtain ⟨u5, e1, e2, e3, e4, e5⟩ := hst4 k _ hk
    rw [h4] at e1
    rw [← Option.some.inj e1] at e4
    have hku := hall.host k _ hk
    have := r10 k u4 h4 (fun g => e4 g ⟨hku.data, hku.raw⟩)
    rw [hnt4] at this
    exact this
  have hsee : ∀ rva x, HasAt q4 rva x → x ≠ [] → Seen q rva x := by
    intro rva x ⟨k, u, o, x1, x2, x3⟩ hx
    obtain ⟨v, v1, v2, ⟨z, v3⟩, -⟩ := hhosts k u x1
    have hat : At (v.memory q.nt.secAlign) o x := by rw [v3]; exact x3.more _
    have hxl : 0 < x.length := List.length_pos_iff.mpr hx
    exact ⟨k, v, o, v1, by rw [v2.va]; exact x2, by have := hat.le; omega, hat⟩
  have htab : t.table q3 = t.table p := by unfold TlsInfo.table; rw [hk3, hnt3]
  have hstr : t.struct p = S := hS
  have hseen : t.SeenIn p q (s.va + pos) := by
    refine ⟨hqk, hqb, r7, r8, ?_, fun h0 => ?_, fun h0 => ?_⟩
    · rw [hstr]
      exact hsee _ _ hS4 (by intro h; rw [h] at f0; simp at f0; omega)
    · by_cases hr : t.raw = []
      · obtain ⟨j, u, u1, ⟨u2, u2'⟩, -⟩ := hdata h0
        obtain ⟨w, w1, w2, w3, w4⟩ := hg4.secs j u u1
        obtain ⟨v, v1, v2, -, v4, -⟩ := hhosts j w w1
        rw [hr]
        exact ⟨j, v, t.start - u.va, v1, by have := v2.va; omega, by omega, ⟨by simp; omega, by simp [slice]⟩⟩
      · exact hsee _ _ (hR4 hr) hr
    · rw [← htab]
      exact hsee _ _ (hC4 h0) (by
        intro h
        have := TlsInfo.table_length t q3
        rw [h, hk3] at this
        simp at this
        omega)
  refine ⟨q, ?_, by have e := hrest; rw [hg4.rest] at e; exact e, hseen, ?_, r2, hqk, r4.trans hg4.hdr, r5.trans hg4.count, by rw [r6, hnt4], ?_, ?_⟩
  · unfold Image.rebuildTls
    rw [hsec]
    dsimp only
    rw [hau, hneed, hroom.check hh, ok_bind, throwIf_neg (by have := hs.index; omega), ok_bind, hstruct, ok_bind,
      hwrite, ok_bind, hp2]
    unfold Image.tlsPutDataIf Image.tlsPutCallbacksIf
    simp only [if_true]
    rw [d1, ok_bind, c1, ok_bind]
    unfold Image.tlsFinish
    rw [s41]
    dsimp only
    rw [hwva, hk4]
    exact r1
  · exact hseen.read hs hmap
  · intro k u o n hk hn hon a1 a2 a3 hdrs
    have hx : HasAt p (u.va + o) (slice u.data o n) :=
      ⟨k, u, o, hk, rfl, ⟨by rw [slice_length_of_le hon]; exact hon, by rw [slice_length_of_le hon]⟩⟩
    have hx2 := hput.keeps _ _ (hkeep1 _ _ hx) (by rw [slice_length_of_le hon, f0]; exact a1)
    have hx3 := d5 _ _ hx2 (by rw [slice_length_of_le hon]; exact a2)
    have hx4 := c5 _ _ hx3 (by rw [slice_length_of_le hon]; exact a3)
    have := r9.read hx4 (by rw [slice_length_of_le hon]; exact hn) hdrs
    rwa [slice_length_of_le hon] at this
  · intro k u hk
    obtain ⟨u4, e1, e2, e3, e4, e5⟩ := hst4 k u hk
    have hku := hall.host k u hk
    obtain ⟨v, v1, v2, ⟨z, v3⟩, v4, v5⟩ := hhosts k u4 e1
    rw [hsa] at v3 v4
    obtain ⟨u5, x1, x2, x3, x4⟩ := hg4.secs k u hk
    rw [e1] at x1
    rw [← Option.some.inj x1] at x3
    refine ⟨v, v1, e2.trans v2, by rw [hku.memory_length]; omega, fun o ho => ?_, fun g => ?_⟩
    · rw [v3, getD_append_zeros, e5 o ho]
      exact (getD_append_zeros u.data _ o).symm
    · rw [v5 (by rw [hg4.count]; exact g)]
      exact ⟨e3, e5⟩

/-- C43: `rebuild_tls` with all parts written, followed by `get_tls_info`, returns exactly the description that was
    written: addresses, zero fill size, characteristics, raw data and callbacks. The directory may go into any section
    with room, the raw data and the table of callbacks into any sections (the same or others): into existing raw data,
    or anywhere into the last section, which grows. Nothing outside of the three ranges changes.
    Missing: parts that overlap; a directory behind the pages of its section; and what `Sound`, `Mapped` and `RoomAt`
    exclude, see `C43_zero_fill_lost`, `C43_virtual_lost`, `C43_short_data` and `C43_callbacks_overrun`. -/
theorem C43_round_trip_partial (p : Image) (i off : Nat) (s : Sec) (t : TlsInfo) (e : ExpandType) (strip : Bool)
    (hall : AllHosts p) (hsec : p.secs[i]? = some s) (hdirs : p.nt.DirsOk) (hnum : dirTls < p.nt.numRva)
    (hoff : off < 2 ^ 32 - 8) (pos : Nat) (hpos : pos = ceilTo off p.kind.ptr)
    (hroom : HostRoom p i s (pos + p.kind.sizeofTls)) (hpage : pos + p.kind.sizeofTls ≤ s.span p.nt.secAlign)
    (hs : t.Sound) (hmap : t.Mapped p)
    (hdata : t.start ≠ 0 → RoomAt p (decide (e = .raw)) t.start t.raw.length)
    (htable : t.callbacksRva ≠ 0 → RoomAt p true t.callbacksRva (p.kind.ptr * (t.callbacks.length + 1)))
    (hd1 : Apart (s.va + pos) p.kind.sizeofTls t.start t.raw.length)
    (hd2 : Apart (s.va + pos) p.kind.sizeofTls t.callbacksRva (t.tableLen p.kind))
    (hd3 : Apart t.start t.raw.length t.callbacksRva (t.tableLen p.kind)) :
    ∃ q, p.rebuildTls t i off true true e true strip = .ok (q, (s.va + pos, p.kind.sizeofTls)) ∧ q.getTls = .ok t ∧
      ValidTable q ∧ q.kind = p.kind ∧ q.hdrData = p.hdrData ∧ q.secs.length = p.secs.length ∧
      q.nt = { p.nt with dirs := p.nt.dirs.set dirTls (s.va + pos, p.kind.sizeofTls) } ∧
      (∀ (k : Nat) (u : Sec) (o n : Nat), p.secs[k]? = some u → 0 < n → o + n ≤ u.data.length →
        Apart (u.va + o) n (s.va + pos) p.kind.sizeofTls → Apart (u.va + o) n t.start t.raw.length →
        Apart (u.va + o) n t.callbacksRva (t.tableLen p.kind) →
        ∀ hdrs, q.readT n (u.va + o) .virt hdrs = .ok (slice u.data o n)) ∧
      ∀ (k : Nat) (u : Sec), p.secs[k]? = some u → ∃ v, Host q k v ∧ u.Resized v ∧
        (u.memory p.nt.secAlign).length ≤ (v.memory p.nt.secAlign).length ∧
        (∀ o, ¬ t.Writes p.kind (s.va + pos) (u.va + o) → (v.memory p.nt.secAlign).getD o 0 = (u.memory p.nt.secAlign).getD o 0) ∧
        (k ≠ i ∨ strip = false ∨ i + 1 = p.secs.length → u.data.length ≤ v.data.length ∧
          ∀ o, ¬ t.Writes p.kind (s.va + pos) (u.va + o) → v.data.getD o 0 = u.data.getD o 0) := by
  obtain ⟨q, h1, -, -, h2⟩ := tls_lasting p i off s t e strip hall hsec hdirs hnum hoff pos hpos hroom hpage hs hmap hdata htable hd1 hd2 hd3
  exact ⟨q, h1, h2⟩

/-! ### Reading: safety and contents -/

/-- What a description of the thread local storage says about the image it was read from, in terms of the bytes at
    the addresses it names. -/
structure TlsInfo.Describes (t : TlsInfo) (p : Image) : Prop where
  /-- The raw data are the bytes of one section (or the headers) from the start address on … -/
  raw : t.raw ≠ [] → ∃ b o, p.ptrFromRva t.start .virt true = .ok (b, o) ∧ o + t.raw.length ≤ b.length ∧
    t.raw = (b.drop o).take t.raw.length
  /-- … up to the end address. -/
  stop : t.start ≠ 0 → t.stop ≠ 0 → t.start + t.raw.length = t.stop
  /-- The callbacks are what the table at the callbacks address lists … -/
  callbacks : ∀ j r, t.callbacks[j]? = some r → ∃ va,
    p.readInt p.kind.ptr (t.callbacksRva + p.kind.ptr * j) .virt true = .ok va ∧ va ≠ 0 ∧
      (r + p.nt.imageBase) % 2 ^ 32 = va % 2 ^ 32
  /-- … up to the first zero. -/
  last : t.callbacksRva ≠ 0 →
    p.readInt p.kind.ptr (t.callbacksRva + p.kind.ptr * t.callbacks.length) .virt true = .ok 0
  none : t.callbacksRva = 0 → t.callbacks = []

theorem vaToRva_noUB' (p : Image) (va : Nat) (c : Bool) : NoUB (p.vaToRva va c) := by
  unfold Image.vaToRva
  split
  · unfold Image.vaToRva32
    split
    · exact NoUB.throwE _
    · exact NoUB.ok _
  · unfold Image.vaToRva64
    split
    · exact NoUB.throwE _
    · exact NoUB.ok _

theorem vaToRva_low {p : Image} {va r : Nat} {c : Bool} (h : p.vaToRva va c = .ok r) :
    r = w32 (sub64 va p.nt.imageBase) := by
  unfold Image.vaToRva at h
  split at h
  · unfold Image.vaToRva32 at h
    split at h
    · simp at h
    · injection h with h; exact h.symm
  · unfold Image.vaToRva64 at h
    split at h
    · simp at h
    · injection h with h; exact h.symm

theorem rvaOrZero_noUB (p : Image) (va : Nat) : NoUB (p.rvaOrZero va) := by
  unfold Image.rvaOrZero
  split
  · exact vaToRva_noUB' _ _ _
  · exact NoUB.ok _

theorem tlsCheck_noUB (p : Image) (st en : Nat) : NoUB (p.tlsCheck st en) := by
  unfold Image.tlsCheck
  split
  · exact NoUB.bind (vaToRva_noUB' _ _ _) (fun r _ => NoUB.bind (dataLenFrom_noUB _ _ _ _ _) (fun _ _ => NoUB.throwIf _ _))
  · exact NoUB.ok _

/-- A stretch of virtual data ends below 4 GiB. -/
theorem dataLen_below {p : Image} (hp : ReadsBelow4G p) {r len : Nat} (_hr : r < 4294967296)
    (h : p.dataLenFrom r r .virt true = .ok len) : r + len < 4294967296 := by
  unfold Image.dataLenFrom at h
  split at h
  · next hc =>
    cases h
    have := hp.hdr
    have : w32 (p.hdrData.length - r) ≤ p.hdrData.length - r := Nat.mod_le _ _
    omega
  · obtain ⟨s, hs, h⟩ := bind_ok_iff.mp h
    split at h
    · simp at h
    · obtain ⟨hm, hcv⟩ := sectionFromRva_mem hs
      obtain ⟨h1, h2⟩ := hp.secs s hm _ hcv
      have hle := Sec.containsRva_le hcv
      cases h
      have : w32 (s.viewLen .virt p.nt.secAlign + s.va - r) ≤ s.viewLen .virt p.nt.secAlign + s.va - r := Nat.mod_le _ _
      have : s.viewLen .virt p.nt.secAlign = s.alignedVS p.nt.secAlign := by
        simp only [Sec.viewLen]
      omega

/-- What the check of the raw data guarantees. -/
theorem tlsCheck_val {p : Image} {st en : Nat} (h : p.tlsCheck st en = .ok ()) (h0 : st ≠ 0) :
    ∃ r len, p.vaToRva st = .ok r ∧ p.dataLenFrom r r .virt true = .ok len ∧
      (256 ^ p.kind.ptr + en - st) % 256 ^ p.kind.ptr ≤ len := by
  unfold Image.tlsCheck at h
  rw [if_pos h0] at h
  obtain ⟨r, h1, h⟩ := bind_ok_iff.mp h
  obtain ⟨len, h2, h⟩ := bind_ok_iff.mp h
  refine ⟨r, len, h1, h2, ?_⟩
  unfold throwIf at h
  split at h
  · simp at h
  · omega

/-- Reading the raw data after the check. -/
theorem tlsRaw_spec {p : Image} (hp : ReadsBelow4G p) {st en : Nat} (hst : st < 256 ^ p.kind.ptr)
    (hen : en < 256 ^ p.kind.ptr) (h : p.tlsCheck st en = .ok ()) :
    NoUB (p.tlsRaw st en) ∧ ∀ raw, p.tlsRaw st en = .ok raw → (st = 0 → raw = []) ∧
      (st ≠ 0 → raw.length = (256 ^ p.kind.ptr + en - st) % 256 ^ p.kind.ptr) ∧
      (raw ≠ [] → ∃ r b o, p.vaToRva st = .ok r ∧ p.ptrFromRva r .virt true = .ok (b, o) ∧
        o + raw.length ≤ b.length ∧ raw = (b.drop o).take raw.length) := by
  unfold Image.tlsRaw
  by_cases hc : st ≠ 0 ∧ st ≠ en
  · rw [if_pos hc]
    obtain ⟨r, len, h1, h2, h3⟩ := tlsCheck_val h hc.1
    have h4 := dataLen_below hp (vaToRva_val h1).1 h2
    rw [h1, ok_bind, w32, Nat.mod_eq_of_lt (by omega)]
    generalize hn : (256 ^ p.kind.ptr + en - st) % 256 ^ p.kind.ptr = n at *
    cases hx : p.ptrFromRva r .virt true with
    | error f =>
      constructor
      · intro u hu
        refine ptrFromRva_noUB p r .virt true u ?_
        rw [hx]
        have hu : (Except.error f : Res Bytes) = Except.error (.ub u) := hu
        injection hu with hu
        rw [hu]
      · intro raw hraw
        have hraw : (Except.error f : Res Bytes) = Except.ok raw := hraw
        simp at hraw
    | ok x =>
      obtain ⟨b, o⟩ := x
      have h5 := dataLen_ptr .virt true h2 hx
      rw [List.length_drop] at h5
      rw [ok_bind]
      dsimp only
      by_cases ho : o + n ≤ b.length
      · rw [readN_ok ho]
        refine ⟨NoUB.ok _, fun raw hraw => ?_⟩
        injection hraw with hraw
        have hl := slice_length_of_le ho
        rw [hraw] at hl
        refine ⟨fun h0 => absurd h0 hc.1, fun _ => hl, fun _ => ⟨r, b, o, rfl, hx, by omega, ?_⟩⟩
        rw [hl, ← hraw]
        rfl
      · have hn0 : n = 0 := by omega
        exfalso
        rw [hn0] at hn
        have hne := hc.2
        rcases p.kind.ptr_cases with e | e <;> rw [e] at hn hst hen <;> omega
  · rw [if_neg hc]
    refine ⟨NoUB.ok _, fun raw hraw => ?_⟩
    injection hraw with hraw
    subst hraw
    refine ⟨fun _ => rfl, fun h0 => ?_, fun h0 => absurd rfl h0⟩
    have he : st = en := Decidable.byContradiction fun h1 => hc ⟨h0, h1⟩
    rw [he, Nat.add_sub_cancel, Nat.mod_self]
    rfl

/-- The loop over the table of callbacks ends. -/
theorem tlsLoop_noUB {p : Image} (hp : Readable p) (table fuel cur : Nat) (hf : 0 < fuel) (hc : cur < 4294967296)
    (h : ∀ r, p.vaToRva ((table + cur) % 256 ^ p.kind.ptr) = .ok r →
      cur ≤ r ∧ 4294967296 ≤ r + fuel * p.kind.ptr) : NoUB (p.tlsLoop table fuel cur) := by
  induction fuel generalizing cur with
  | zero => omega
  | succ fuel ih =>
    rw [Image.tlsLoop]
    refine NoUB.bind (vaToRva_noUB' _ _ _) (fun r hr => NoUB.bind (readInt_noUB _ _ _ _ _) (fun va hva => ?_))
    split
    · exact NoUB.ok _
    · refine NoUB.bind (vaToRva_noUB' _ _ _) (fun _ _ => NoUB.bind ?_ (fun _ _ => NoUB.ok _))
      unfold Image.readInt at hva
      obtain ⟨b, hb, -⟩ := bind_ok_iff.mp hva
      have hb' := readT_below hp.reads (vaToRva_val hr).1 hb
      obtain ⟨h0, h1⟩ := h r hr
      rw [Nat.succ_mul] at h1
      have hw : w32 (cur + p.kind.ptr) = cur + p.kind.ptr := by rw [w32, Nat.mod_eq_of_lt (by omega)]
      rw [hw]
      refine ih (cur + p.kind.ptr) ?_ (by omega) ?_
      · rcases Nat.eq_zero_or_pos fuel with hz | hz
        · subst hz; omega
        · exact hz
      · intro r' hr'
        rw [← Nat.add_assoc] at hr'
        have := vaToRva_next hp.base hr hb' hr'
        omega

/-- What the loop returns. -/
theorem tlsLoop_val {p : Image} (hp : Readable p) {table r : Nat} (fuel cur : Nat) {l : List Nat}
    (hr : p.vaToRva ((table + cur) % 256 ^ p.kind.ptr) = .ok r) (hc : cur ≤ r) (h : p.tlsLoop table fuel cur = .ok l) :
    (∀ j x, l[j]? = some x → ∃ va, p.readInt p.kind.ptr (r + p.kind.ptr * j) .virt true = .ok va ∧ va ≠ 0 ∧
      (x + p.nt.imageBase) % 2 ^ 32 = va % 2 ^ 32) ∧
    p.readInt p.kind.ptr (r + p.kind.ptr * l.length) .virt true = .ok 0 := by
  induction fuel generalizing cur r l with
  | zero => simp [Image.tlsLoop, ubE] at h
  | succ fuel ih =>
    rw [Image.tlsLoop, hr, ok_bind] at h
    obtain ⟨va, hva, h⟩ := bind_ok_iff.mp h
    by_cases h0 : va = 0
    · rw [if_pos h0] at h
      injection h with h
      subst h
      exact ⟨fun j x hj => by simp at hj, by rw [List.length_nil, Nat.mul_zero, Nat.add_zero, hva, h0]⟩
    · rw [if_neg h0] at h
      obtain ⟨x, hx, h⟩ := bind_ok_iff.mp h
      obtain ⟨l', hl', h⟩ := bind_ok_iff.mp h
      injection h with h
      subst h
      have hb := hva
      unfold Image.readInt at hb
      obtain ⟨b, hb, -⟩ := bind_ok_iff.mp hb
      have hb' := readT_below hp.reads (vaToRva_val hr).1 hb
      have hw : w32 (cur + p.kind.ptr) = cur + p.kind.ptr := by rw [w32, Nat.mod_eq_of_lt (by omega)]
      rw [hw] at hl'
      have hr' : p.vaToRva ((table + (cur + p.kind.ptr)) % 256 ^ p.kind.ptr) = .ok (r + p.kind.ptr) := by
        cases fuel with
        | zero => simp [Image.tlsLoop, ubE] at hl'
        | succ fuel =>
          have hl2 := hl'
          rw [Image.tlsLoop] at hl2
          obtain ⟨r', hr', -⟩ := bind_ok_iff.mp hl2
          rw [hr']
          rw [← Nat.add_assoc] at hr'
          rw [vaToRva_next hp.base hr hb' hr']
      obtain ⟨i1, i2⟩ := ih (cur + p.kind.ptr) hr' (by omega) hl'
      have hbase := hp.base
      refine ⟨fun j y hj => ?_, ?_⟩
      · cases j with
        | zero =>
          injection hj with hj
          refine ⟨va, by rw [Nat.mul_zero, Nat.add_zero]; exact hva, h0, ?_⟩
          rw [← hj, vaToRva_low hx]
          unfold w32 sub64
          have : p.nt.imageBase < 2 ^ 64 := by
            rcases p.kind.ptr_cases with e | e <;> rw [e] at hbase <;> omega
          omega
        | succ j =>
          obtain ⟨v, v1, v2, v3⟩ := i1 j y hj
          refine ⟨v, ?_, v2, v3⟩
          rw [← v1, Nat.mul_succ]
          congr 1
          omega
      · rw [List.length_cons, Nat.mul_succ, ← i2]
        congr 1
        omega

theorem tlsFixed_lt {p : Image} {st en : Nat} (h1 : st < 256 ^ p.kind.ptr) (h2 : en < 256 ^ p.kind.ptr) :
    (p.tlsFixed st en).1 < 256 ^ p.kind.ptr ∧ (p.tlsFixed st en).2 < 256 ^ p.kind.ptr := by
  have h0 : 0 < 256 ^ p.kind.ptr := Nat.lt_of_le_of_lt (Nat.zero_le _) h1
  unfold Image.tlsFixed
  split
  · split
    · exact ⟨h1, h2⟩
    · exact ⟨h0, h0⟩
  · exact ⟨h1, h2⟩

theorem getTls_noUB {p : Image} (hp : Readable p) : NoUB p.getTls := by
  unfold Image.getTls
  refine NoUB.bind (hasDir_noUB hp.dirs.slots (by decide)) (fun b _ => NoUB.bind (NoUB.throwIf _ _) (fun _ _ =>
    NoUB.bind (getDir_noUB hp.dirs _).1 (fun rva _ => NoUB.bind (readT_noUB _ _ _ _ _) (fun b _ => ?_))))
  dsimp only
  obtain ⟨f1, f2⟩ := tlsFixed_lt (p := p) (rd_lt p.kind.ptr b 0) (rd_lt p.kind.ptr b p.kind.ptr)
  refine NoUB.bind (tlsCheck_noUB _ _ _) (fun _ hc => NoUB.bind (rvaOrZero_noUB _ _) (fun _ _ =>
    NoUB.bind (rvaOrZero_noUB _ _) (fun _ _ => NoUB.bind (rvaOrZero_noUB _ _) (fun _ _ =>
    NoUB.bind (rvaOrZero_noUB _ _) (fun cb _ => NoUB.bind (tlsRaw_spec hp.reads f1 f2 hc).1 (fun _ _ =>
    NoUB.bind ?_ (fun _ _ => NoUB.ok _)))))))
  unfold Image.tlsCallbacks
  split
  · refine tlsLoop_noUB hp _ _ _ (by decide) (by decide) (fun r _ => ?_)
    have := p.kind.ptr_cases
    omega
  · exact NoUB.ok _

theorem getTls_describes {p : Image} (hp : Readable p) {t : TlsInfo} (h : p.getTls = .ok t) : t.Describes p := by
  unfold Image.getTls at h
  obtain ⟨_, -, h⟩ := bind_ok_iff.mp h
  obtain ⟨_, -, h⟩ := bind_ok_iff.mp h
  obtain ⟨_, -, h⟩ := bind_ok_iff.mp h
  obtain ⟨b, -, h⟩ := bind_ok_iff.mp h
  dsimp only at h
  obtain ⟨f1, f2⟩ := tlsFixed_lt (p := p) (rd_lt p.kind.ptr b 0) (rd_lt p.kind.ptr b p.kind.ptr)
  have f3 := rd_lt p.kind.ptr b (3 * p.kind.ptr)
  generalize p.tlsFixed (rd p.kind.ptr b 0) (rd p.kind.ptr b p.kind.ptr) = fx at *
  generalize rd p.kind.ptr b (3 * p.kind.ptr) = tab at *
  obtain ⟨st, en⟩ := fx
  dsimp only at *
  obtain ⟨_, hc, h⟩ := bind_ok_iff.mp h
  obtain ⟨r1, e1, h⟩ := bind_ok_iff.mp h
  obtain ⟨r2, e2, h⟩ := bind_ok_iff.mp h
  obtain ⟨r3, -, h⟩ := bind_ok_iff.mp h
  obtain ⟨r4, e4, h⟩ := bind_ok_iff.mp h
  obtain ⟨raw, e5, h⟩ := bind_ok_iff.mp h
  obtain ⟨cbs, e6, h⟩ := bind_ok_iff.mp h
  injection h with h
  subst h
  obtain ⟨w1, w2, w3⟩ := (tlsRaw_spec hp.reads f1 f2 hc).2 raw e5
  have hbase := hp.base
  unfold Image.rvaOrZero at e1 e2 e4
  have hcb : r4 ≠ 0 → p.vaToRva ((tab + 0) % 256 ^ p.kind.ptr) = .ok r4 := by
    intro h0
    rw [Nat.add_zero, Nat.mod_eq_of_lt f3]
    split at e4
    · exact e4
    · exact absurd (Except.ok.inj e4).symm h0
  unfold Image.tlsCallbacks at e6
  generalize 4294967296 = fuel at e6
  refine ⟨fun hr => ?_, fun h1 h2 => ?_, fun j r hj => ?_, fun h0 => ?_, fun h0 => ?_⟩ <;> dsimp only at *
  · obtain ⟨r, bb, o, v1, v2, v3, v4⟩ := w3 hr
    have h0 : st ≠ 0 := fun h0 => hr (w1 h0)
    rw [if_pos h0, v1] at e1
    rw [← Except.ok.inj e1]
    exact ⟨bb, o, v2, v3, v4⟩
  · have h3 : st ≠ 0 := by
      intro h0; rw [if_neg (by simp [h0])] at e1; injection e1 with e1; exact h1 e1.symm
    have h4 : en ≠ 0 := by
      intro h0; rw [if_neg (by simp [h0])] at e2; injection e2 with e2; exact h2 e2.symm
    rw [if_pos h3] at e1
    rw [if_pos h4] at e2
    obtain ⟨g1, g2⟩ := vaToRva_val e1
    obtain ⟨g3, g4⟩ := vaToRva_val e2
    obtain ⟨r, len, k1, k2, k3⟩ := tlsCheck_val hc h3
    rw [e1] at k1
    rw [← Except.ok.inj k1] at k2
    have k4 := dataLen_below hp.reads g1 k2
    have k5 := w2 h3
    unfold sub64 at g2 g4
    rcases p.kind.ptr_cases with e | e <;> rw [e] at k3 k5 f1 f2 hbase <;> omega
  · split at e6
    · next h0 => exact (tlsLoop_val hp _ 0 (hcb h0) (Nat.zero_le _) e6).1 j r hj
    · injection e6 with e6; rw [← e6] at hj; simp at hj
  · rw [if_pos h0] at e6
    exact (tlsLoop_val hp _ 0 (hcb h0) (Nat.zero_le _) e6).2
  · rw [if_neg (by simp [h0])] at e6
    exact (Except.ok.inj e6).symm

/-- C67: on every image loaded from any file, `get_tls_info` returns or throws: it never reads outside of a buffer and
    the loop over the table of callbacks ends. -/
theorem C67_tls_safe (k : Kind) (strict fromMem dbg : Bool) (pre : List (Nat × Nat)) (hp : pre.length = 16)
    (hp' : ∀ d ∈ pre, d.1 < 2 ^ 32) (file : Bytes) (p : Image) (h : load k strict fromMem dbg pre file = .ok p) (u : UB) :
    p.getTls ≠ .error (.ub u) :=
  getTls_noUB (loaded_readable hp hp' h) u

/-- C67: on every image loaded from any file, what `get_tls_info` returns are the bytes and the table of the image. -/
theorem C67_tls_contents (k : Kind) (strict fromMem dbg : Bool) (pre : List (Nat × Nat)) (hp : pre.length = 16)
    (hp' : ∀ d ∈ pre, d.1 < 2 ^ 32) (file : Bytes) (p : Image) (h : load k strict fromMem dbg pre file = .ok p)
    (t : TlsInfo) (ht : p.getTls = .ok t) : t.Describes p :=
  getTls_describes (loaded_readable hp hp' h) ht

/-- C67: equal start and end addresses that are no addresses of the image (some linkers leave them behind) are read as
    "no raw data", instead of as an error. -/
theorem C67_stale_addresses (p : Image) (b : Bytes) (t : TlsInfo) (rva : Nat) (hr : p.nt.getDirRva dirTls = .ok rva)
    (hb : p.readT p.kind.sizeofTls rva .virt true = .ok b) (heq : rd p.kind.ptr b 0 = rd p.kind.ptr b p.kind.ptr)
    (hout : p.nt.imageBase + 2 ^ 32 ≤ rd p.kind.ptr b 0 ∨ rd p.kind.ptr b 0 < p.nt.imageBase)
    (hbase : p.nt.imageBase + 2 ^ 32 ≤ 2 ^ 64) (hva : rd p.kind.ptr b 0 < 2 ^ 64)
    (ht : p.getTls = .ok t) : t.start = 0 ∧ t.stop = 0 ∧ t.raw = [] := by
  have hv : ∃ e, p.vaToRva (rd p.kind.ptr b p.kind.ptr) = .error e := by
    rw [← heq]
    refine ⟨.exn .incorrectAddressConversion, ?_⟩
    rw [C05_va_to_rva p _ hva hbase, if_neg (by omega)]
  obtain ⟨e, hv⟩ := hv
  unfold Image.getTls at ht
  obtain ⟨has, -, ht⟩ := bind_ok_iff.1 ht
  obtain ⟨-, -, ht⟩ := bind_ok_iff.1 ht
  rw [hr, ok_bind, hb, ok_bind] at ht
  have hf : p.tlsFixed (rd p.kind.ptr b 0) (rd p.kind.ptr b p.kind.ptr) = (0, 0) := by
    unfold Image.tlsFixed
    rw [if_pos heq.symm, hv]
  dsimp only at ht
  rw [hf] at ht
  obtain ⟨-, -, ht⟩ := bind_ok_iff.1 ht
  have h0 : p.rvaOrZero 0 = .ok 0 := if_neg (fun h => h rfl)
  have h1 : p.tlsRaw 0 0 = .ok [] := if_neg (fun h => h.1 rfl)
  dsimp only at ht
  rw [h0, ok_bind, ok_bind] at ht
  obtain ⟨ix, -, ht⟩ := bind_ok_iff.1 ht
  obtain ⟨cb, -, ht⟩ := bind_ok_iff.1 ht
  rw [h1, ok_bind] at ht
  obtain ⟨cbs, -, ht⟩ := bind_ok_iff.1 ht
  rw [← Except.ok.inj ht]
  exact ⟨rfl, rfl, rfl⟩

/-- C43: `rebuild_tls` refuses a description whose end lies before its start or that has no index, in every section with
    room for the directory. -/
theorem C43_refuses (p : Image) (t : TlsInfo) (i off : Nat) (s : Sec) (wcb wdata : Bool) (e : ExpandType) (save strip : Bool)
    (hs : p.secs[i]? = some s) (hbad : t.stop < t.start ∨ t.index = 0) :
    ∃ x, p.rebuildTls t i off wcb wdata e save strip = .error (.exn x) ∧
      (p.spaceCheck i s (w32 (p.kind.sizeofTls + alignUp off p.kind.ptr)) = .ok () → x = .incorrectTlsDirectory) := by
  unfold Image.rebuildTls
  rw [hs]
  dsimp only
  cases hc : p.spaceCheck i s (w32 (p.kind.sizeofTls + alignUp off p.kind.ptr)) with
  | error f =>
    unfold Image.spaceCheck throwIf at hc
    split at hc
    · have e : f = .exn .insufficientSpace := (Except.error.inj hc).symm
      exact ⟨.insufficientSpace, by rw [e]; rfl, fun h => by cases h⟩
    · cases hc
  | ok u =>
    refine ⟨.incorrectTlsDirectory, ?_, fun _ => rfl⟩
    rw [ok_bind, throwIf, if_pos hbad]
    rfl

example : ∃ x, demoImage.rebuildTls { start := 0x1004, stop := 0x1000, index := 0x1000 } 1 16 true true .raw true true = .error (.exn x) := by
  obtain ⟨x, h, -⟩ := C43_refuses demoImage { start := 0x1004, stop := 0x1000, index := 0x1000 } 1 16 _ true true .raw true true rfl
    (.inl (by decide))
  exact ⟨x, h⟩

/-- C43: `recalc_raw_data_end_rva` makes the end address fit to the raw data (as the round trip requires) and changes
    nothing else. -/
theorem C43_recalculated (t : TlsInfo) (h : t.start + t.raw.length < 2 ^ 32) :
    t.recalcStop.stop = t.recalcStop.start + t.recalcStop.raw.length ∧ { t.recalcStop with stop := t.stop } = t := by
  unfold TlsInfo.recalcStop w32
  refine ⟨?_, rfl⟩
  dsimp only
  omega

/-- A small file with a TLS directory: four bytes of raw data and one callback. -/
def tlsFile : Bytes :=
  [0x4d, 0x5a] ++ zeros 58 ++ leBytes 4 64 ++
    encFields (ntFields .pe32 { tinyNt 1 1088 304 with numRva := 10, sizeOptHdr := 176, imageBase := 0x400000 }) ++
    zeros 72 ++ (leBytes 4 1024 ++ leBytes 4 24) ++ encSec (tinySec 64 1024 48 304) ++
    ([0x400000 + 1048, 0x400000 + 1052, 0x400000 + 1060, 0x400000 + 1052, 7, 0].flatMap (leBytes 4) ++ [1, 2, 3, 4] ++
      leBytes 4 0x400500 ++ zeros 16)

/-- What it says. -/
def tlsFileInfo : TlsInfo :=
  { start := 1048, stop := 1052, index := 1060, callbacksRva := 1052, zeroFill := 7, raw := [1, 2, 3, 4],
    callbacks := [0x500] }

/-- C67 is about files like this one. -/
example : ∃ p, load .pe32 true false true zeroDirs tlsFile = .ok p ∧ p.getTls = .ok tlsFileInfo := by
  obtain ⟨p, h1, h2⟩ := exists_of_okAnd (x := load .pe32 true false true zeroDirs tlsFile)
    (f := fun p => decide (p.getTls = .ok tlsFileInfo)) (by decide +kernel)
  exact ⟨p, h1, by simpa using h2⟩

/-- `C67_stale_addresses` applies: a file whose directory has two equal addresses below the image base. -/
def staleFile : Bytes :=
  [0x4d, 0x5a] ++ zeros 58 ++ leBytes 4 64 ++
    encFields (ntFields .pe32 { tinyNt 1 1088 304 with numRva := 10, sizeOptHdr := 176, imageBase := 0x400000 }) ++
    zeros 72 ++ (leBytes 4 1024 ++ leBytes 4 24) ++ encSec (tinySec 64 1024 48 304) ++
    ([0x1000, 0x1000, 0x400000 + 1060, 0, 7, 0].flatMap (leBytes 4) ++ zeros 24)

example : ∃ p t, load .pe32 true false true zeroDirs staleFile = .ok p ∧ p.getTls = .ok t ∧ t.index = 1060 ∧
    ∃ b, p.readT p.kind.sizeofTls 1024 .virt true = .ok b ∧ p.nt.getDirRva dirTls = .ok 1024 ∧
      rd p.kind.ptr b 0 = rd p.kind.ptr b p.kind.ptr ∧ 0 < rd p.kind.ptr b 0 ∧ rd p.kind.ptr b 0 < p.nt.imageBase := by
  obtain ⟨p, h1, h2⟩ := exists_of_okAnd (x := load .pe32 true false true zeroDirs staleFile)
    (f := fun p => decide (p.getTls = .ok { index := 1060, zeroFill := 7 } ∧ p.nt.getDirRva dirTls = .ok 1024 ∧
      p.readT p.kind.sizeofTls 1024 .virt true = .ok ([0x1000, 0x1000, 0x400000 + 1060, 0, 7, 0].flatMap (leBytes 4)) ∧
      p.kind = .pe32 ∧ p.nt.imageBase = 0x400000)) (by decide +kernel)
  obtain ⟨h3, h4, h5, h6, h7⟩ := of_decide_eq_true h2
  refine ⟨p, _, h1, h3, rfl, _, h5, h4, ?_⟩
  rw [h6, h7]
  decide

/-! ### The round trip: a case it applies to, and what goes wrong outside of its hypotheses -/

theorem demo_allHosts : AllHosts demoImage where
  valid := demo_valid
  host := by
    intro j s hs
    match j with
    | 0 => rw [← Option.some.inj hs]; exact demo_host_first
    | 1 => rw [← Option.some.inj hs]; exact demo_host_last
    | j + 2 => simp [demoImage] at hs
  small := by decide

/-- Raw data inside of the first section, a table of two callbacks behind the raw data of the last one. -/
def demoTls : TlsInfo :=
  { start := 0x1002, stop := 0x1006, index := 0x1000, callbacksRva := 0x2100, zeroFill := 9, chars := 3,
    raw := [10, 11, 12, 13], callbacks := [0x1000, 0x1004] }

/-- C43 applies to the demo image. -/
example : ∃ q, demoImage.rebuildTls demoTls 1 18 true true .raw true true = .ok (q, (0x2014, 24)) ∧
    q.getTls = .ok demoTls := by
  obtain ⟨q, h1, h2, -⟩ := C43_round_trip_partial demoImage 1 18 _ demoTls .raw true demo_allHosts rfl ⟨rfl, by decide⟩
    (by decide) (by decide) 20 (by decide) (by decide) (by decide)
    ⟨by decide, by decide, by decide, by decide, by decide, by decide, by decide, by decide⟩
    ⟨by decide, by decide, by decide, by decide, by decide⟩
    (fun _ => ⟨0, _, rfl, by decide, by decide⟩) (fun _ => ⟨1, _, rfl, by decide, by decide⟩)
    (by decide) (by decide) (by decide)
  exact ⟨q, h1, h2⟩

/-- What `Sound` excludes: without raw data (zero-filled storage only) the size of the zero fill is not written and is
    read back as 0. -/
theorem C43_zero_fill_lost : ∃ (q : Image) (dir : Nat × Nat) (t : TlsInfo), t.stop = t.start + t.raw.length ∧
    0 < t.index ∧ t.zeroFill = 16 ∧ demoImage.rebuildTls t 1 16 true true .raw true true = .ok (q, dir) ∧
    q.getTls = .ok { t with zeroFill := 0 } := by
  obtain ⟨⟨q, dir⟩, h1, h2⟩ := exists_of_okAnd
    (x := demoImage.rebuildTls { index := 0x1000, zeroFill := 16 } 1 16 true true .raw true true)
    (f := fun r => decide (r.1.getTls = .ok { index := 0x1000, zeroFill := 0 })) (by decide +kernel)
  exact ⟨q, dir, { index := 0x1000, zeroFill := 16 }, rfl, by decide, rfl, h1, of_decide_eq_true h2⟩

/-- Raw data that begin inside of the raw data of the first section and end behind it. -/
def longTls (raw : Bytes) : TlsInfo := { start := 0x1004, stop := 0x100C, index := 0x1000, raw := raw }

/-- What `RoomAt` excludes: raw data that reach behind the raw data of a section that does not grow are cut off without
    an exception, and are read back as zeros. -/
theorem C43_virtual_lost : ∃ (q : Image) (dir : Nat × Nat) (t : TlsInfo), t.Sound ∧ t.Mapped demoImage ∧
    t.raw = [1, 2, 3, 4, 5, 6, 7, 8] ∧ demoImage.rebuildTls t 1 16 true true .raw true true = .ok (q, dir) ∧
    q.getTls = .ok { t with raw := [1, 2, 3, 4, 0, 0, 0, 0] } := by
  obtain ⟨⟨q, dir⟩, h1, h2⟩ := exists_of_okAnd
    (x := demoImage.rebuildTls (longTls [1, 2, 3, 4, 5, 6, 7, 8]) 1 16 true true .raw true true)
    (f := fun r => decide (r.1.getTls = .ok (longTls [1, 2, 3, 4, 0, 0, 0, 0]))) (by decide +kernel)
  exact ⟨q, dir, _, ⟨by decide, by decide, by decide, by decide, by decide, by decide, by decide, by decide⟩,
    ⟨by decide, by decide, by decide, by decide, by decide⟩, rfl, h1, of_decide_eq_true h2⟩

/-- What `Sound` excludes: if the raw data given are shorter than the range of addresses says, the rebuilder reads
    behind the end of the string. -/
theorem C43_short_data : ∃ t : TlsInfo, t.raw.length < t.stop - t.start ∧
    demoImage.rebuildTls t 1 16 true true .raw true true = .error (.ub .oobRead) :=
  ⟨{ start := 0x1002, stop := 0x1006, index := 0x1000, raw := [1] }, by decide, isUb_eq (by decide +kernel)⟩

/-- What `RoomAt` excludes: in a section that cannot grow, whose raw data have room for all callbacks but not for the
    final null, the null is written behind the end of the section's raw data. -/
theorem C43_callbacks_overrun : ∃ t : TlsInfo, t.Sound ∧ t.Mapped demoImage ∧
    demoImage.rebuildTls t 1 16 true true .raw true true = .error (.ub .oobWrite) :=
  ⟨{ index := 0x1000, callbacksRva := 0x1004, callbacks := [0x1000] },
    ⟨by decide, by decide, by decide, by decide, by decide, by decide, by decide, by decide⟩,
    ⟨by decide, by decide, by decide, by decide, by decide⟩, isUb_eq (by decide +kernel)⟩

end PE
