/-
C90: several directories in one section.
-/
import Verif.Props.Workflow
namespace PE

/-! ### What a call takes of its section -/

/-- Offset and length of what the call writes into its section (the sizes of C25, C27, C29, C31, C44 and C45; up to three bytes of
    padding after the resources). TLS is not covered. -/
def DirEdit.extent (k : Kind) : DirEdit → Nat × Nat
  | .exports _ info l off _ _ =>
    (ceilTo off 4, exportSize info l ((l.map ExportFn.ordinal).min?.getD 0) ((l.map ExportFn.ordinal).max?.getD 0))
  | .imports _ ls c off _ _ _ =>
    (off, ceilTo (off + importNames ls + 20 * (ls.length + 1)) k.ptr + k.ptr * thunkCount ls +
      (if c.buildOrig then k.ptr * thunkCount (freshLibs c.save ls) else 0) - off)
  | .relocs _ l off _ _ => (ceilTo off 4, relocBytes l)
  | .config _ c off _ _ _ _ => (ceilTo off k.ptr, k.sizeofConfig + 4 * c.handlers.length + k.ptr * (c.locks.length + 1))
  | .resources _ r off _ _ =>
    (ceilTo off 4, dataEndOf r.es (ceilTo off 4 + ((ceilTo off 4 - off) + (16 + 8 * r.es.length + tablesOf r.es) + namesIn r.es)) -
      ceilTo off 4 + 3)
  | .bound _ l off _ _ => (ceilTo off 4, boundSize l)
  | .tls _ _ off _ _ _ _ _ => (off, 0)

/-- The argument `auto_strip_last_section`. -/
def DirEdit.strip : DirEdit → Bool
  | .exports _ _ _ _ _ b => b
  | .imports _ _ _ _ _ _ b => b
  | .relocs _ _ _ _ b => b
  | .config _ _ _ _ _ _ b => b
  | .resources _ _ _ _ b => b
  | .bound _ _ _ _ b => b
  | .tls _ _ _ _ _ _ _ b => b

/-- The call `b`, made after `a` (for an image of kind `k` with `n` sections), leaves alone what `a` has written: it stores other
    directories; if it works on the same section it writes to another part of it, and it does not remove bytes at the end of the
    raw data if those are read. -/
structure DirEdit.Clear (k : Kind) (n : Nat) (a b : DirEdit) : Prop where
  stores : ∀ x ∈ a.stores, x ∉ b.stores
  part : a.sec = b.sec → (a.extent k).1 + (a.extent k).2 ≤ (b.extent k).1 ∨ (b.extent k).1 + (b.extent k).2 ≤ (a.extent k).1
  raw : a.sec = b.sec → a.ReadsRaw → b.strip = false ∨ b.sec + 1 = n

instance DirEdit.decClear (k : Kind) (n : Nat) (a b : DirEdit) : Decidable (a.Clear k n b) :=
  decidable_of_iff ((∀ x ∈ a.stores, x ∉ b.stores) ∧
      (a.sec = b.sec → (a.extent k).1 + (a.extent k).2 ≤ (b.extent k).1 ∨ (b.extent k).1 + (b.extent k).2 ≤ (a.extent k).1) ∧
      (a.sec = b.sec → a.ReadsRaw → b.strip = false ∨ b.sec + 1 = n))
    ⟨fun h => ⟨h.1, h.2.1, h.2.2⟩, fun h => ⟨h.1, h.2, h.3⟩⟩

theorem OrdinalRange.min_max {l : List ExportFn} {lo hi : Nat} (h : OrdinalRange l lo hi) :
    (l.map ExportFn.ordinal).min?.getD 0 = lo ∧ (l.map ExportFn.ordinal).max?.getD 0 = hi := by
  obtain ⟨f, hf, rfl⟩ := h.lo_mem
  obtain ⟨g, hg, rfl⟩ := h.hi_mem
  have h1 : (l.map ExportFn.ordinal).min? = some f.ordinal := by
    rw [List.min?_eq_some_iff]
    refine ⟨List.mem_map_of_mem hf, fun b hb => ?_⟩
    obtain ⟨x, hx, rfl⟩ := List.mem_map.mp hb
    exact (h.le x hx).1
  have h2 : (l.map ExportFn.ordinal).max? = some g.ordinal := by
    rw [List.max?_eq_some_iff]
    refine ⟨List.mem_map_of_mem hg, fun b hb => ?_⟩
    obtain ⟨x, hx, rfl⟩ := List.mem_map.mp hb
    exact (h.le x hx).2
  rw [h1, h2]; exact ⟨rfl, rfl⟩

/-- The call was for the base relocations; those are read only if the flag in the headers is clear. -/
def DirEdit.IsRelocs : DirEdit → Prop
  | .relocs .. => True
  | _ => False

def DirEdit.IsBound : DirEdit → Prop
  | .bound .. => True
  | _ => False

/-- The image `q` shows what the call `e` has written into the section of `p`, and the directory; every image that shows them can be
    read as `e` has it. -/
structure DirEdit.LastsIn (e : DirEdit) (p q : Image) (s : Sec) (L : Nat) (x : Bytes) (id : Nat) (dir : Nat × Nat) (raw : Bool) :
    Prop where
  id_mem : id ∈ e.stores
  len : x.length ≤ (e.extent p.kind).2
  rawOnly : raw = true → e.ReadsRaw
  shown : Shown p q e.sec s (e.extent p.kind).1 L x id dir raw
  flag : e.IsRelocs → q.nt.chars &&& 1 = 0
  bound : e.IsBound → id = dirBoundImport ∧ q.nt.sizeHeaders < dir.1 ∧ q.nt.DirsOk
  reads : ∀ r, Shown p r e.sec s (e.extent p.kind).1 L x id dir raw → (e.IsRelocs → r.nt.chars &&& 1 = 0) → e.Reads p r

def DirEdit.Lasts (e : DirEdit) (p q : Image) : Prop := ∃ s L x id dir raw, e.LastsIn p q s L x id dir raw

theorem Durable.lasts {p q : Image} {e : DirEdit} {s : Sec} {lo len id : Nat} {dir : Nat × Nat} {strip raw : Bool} {reads : Image → Prop}
    (h : Durable p q e.sec s lo len id dir strip raw reads) (hlo : (e.extent p.kind).1 = lo) (hlen : len ≤ (e.extent p.kind).2)
    (hid : id ∈ e.stores) (hraw : raw = true → e.ReadsRaw) (hst : e.strip = strip) (hflag : e.IsRelocs → q.nt.chars &&& 1 = 0)
    (hb : e.IsBound → id = dirBoundImport ∧ q.nt.sizeHeaders < dir.1 ∧ q.nt.DirsOk)
    (hr : ∀ r, reads r → (e.IsRelocs → r.nt.chars &&& 1 = 0) → ValidTable r → r.kind = p.kind → e.Reads p r) :
    FrameKept p q e.sec s (e.extent p.kind).1 (e.extent p.kind).2 (e.strip = false ∨ e.sec + 1 = p.secs.length) ∧ e.Lasts p q := by
  subst hlo
  subst hst
  obtain ⟨x, L, h1, h2, h3⟩ := h.shown
  refine ⟨h.frame.mono hlen, s, L, x, id, dir, raw, hid, Nat.le_trans h1 hlen, hraw, h2, hflag, hb, fun r hs hf => ?_⟩
  obtain ⟨t, g, -⟩ := hs.sec
  exact hr r (h3 r hs) hf g.valid hs.kind

/-- A call with enough room leaves the rest of the section alone, and what it has written can be read as long as the bytes and the
    directory stay. -/
theorem DirEdit.Ready.lasts {p q : Image} {e : DirEdit} {d : Nat × Nat} (h : e.Ready p) (hq : e.run p = .ok (q, d)) :
    ∃ s, Host p e.sec s ∧
      FrameKept p q e.sec s (e.extent p.kind).1 (e.extent p.kind).2 (e.strip = false ∨ e.sec + 1 = p.secs.length) ∧ e.Lasts p q := by
  cases h with
  | exports i off s info l strip lo hi hh hdirs hnum hinfo hl hrange hoff hroom hend hout =>
    obtain ⟨q', inf, pf, h1, -, h3, h4⟩ := exports_lasting p i off s info l strip lo hi _ _ hh hdirs hnum hinfo hl hrange hoff rfl rfl
      hroom hend hout
    obtain ⟨rfl, -⟩ := Prod.mk.inj (Except.ok.inj (h1.symm.trans hq))
    obtain ⟨m1, m2⟩ := hrange.min_max
    refine ⟨s, hh, Durable.lasts h4 rfl ?_ List.mem_cons_self (fun g => by cases g) rfl (fun g => g.elim) (fun g => g.elim) ?_⟩
    · show _ ≤ exportSize info l _ _
      rw [m1, m2]; exact Nat.le_refl _
    · intro r hr _ _ _
      refine ⟨inf, _, hr.1, ?_, ?_, h3.1, h3.2.1, h3.2.2.1, h3.2.2.2.1, h3.2.2.2.2.1, fun a b hab => ?_⟩
      · have := sortedFns_lt hl.ordinals
        rw [← List.pairwise_map (f := ExportFn.ordinal) (R := (· < ·))] at this ⊢
        rw [readBack_ordinals]; exact this
      · rw [readBack_shown]; exact (sortedFns_perm l).map _
      · obtain ⟨rfl, rfl⟩ := hrange.unique hab
        exact ⟨h3.2.2.2.2.2.1, h3.2.2.2.2.2.2.1⟩
  | imports i off s ls c zeroIat strip hh hdirs hnum hnum2 hfill hrew hl hlow iat fin need hsz hroom hend =>
    obtain ⟨q1, q', h1, -, -, h4⟩ := imports_lasting p i off s ls c zeroIat strip hh hdirs hnum hnum2 hfill hrew
      (fun l hm => (hl l hm).2) hlow iat fin need hsz hroom hend
    obtain ⟨rfl, -⟩ := Prod.mk.inj (Except.ok.inj (h1.symm.trans hq))
    refine ⟨s, hh, Durable.lasts h4 rfl ?_ ?_ (fun g => by cases g) rfl (fun g => g.elim) (fun g => g.elim) ?_⟩
    · show fin - off ≤ ceilTo _ _ + _ + _ - off
      rw [hsz.hfin, hsz.hiat]
      exact Nat.le_refl _
    · cases zeroIat
      · exact List.mem_cons_self
      · exact List.mem_cons_self
    · intro r hr _ hv hk
      exact hr r i (within_erase hv rfl rfl rfl fun _ _ => rfl) fun l hm =>
        ⟨(hl l hm).2.name, (hl l hm).2.stamp, by rw [hk]; exact (hl l hm).2.fresh, fun g => absurd g (hl l hm).1⟩
  | relocs i off s l strip hh hdirs hnum hne hok hoff hroom =>
    obtain ⟨q', d', h1, -, -, -, -, -, -, -, -, -, -, -, -, -, h2, h3⟩ := relocs_lasting p i off s l strip hh hdirs hnum hne hok hoff hroom
    obtain ⟨rfl, -⟩ := Prod.mk.inj (Except.ok.inj (h1.symm.trans hq))
    exact ⟨s, hh, Durable.lasts h2 rfl (Nat.le_refl _) List.mem_cons_self (fun g => by cases g) rfl (fun _ => h3) (fun g => g.elim)
      fun r hr hf _ _ => hr (hf trivial)⟩
  | config i off s c strip hh hdirs hnum hfit hoff hstrip N hN hroom hbase hb64 hlocks =>
    obtain ⟨q', h1, -, h2⟩ := config_written p i off s c strip hh hdirs hnum hfit hoff hstrip _ N rfl hN hroom hbase hb64 hlocks
    obtain ⟨rfl, -⟩ := Prod.mk.inj (Except.ok.inj (h1.symm.trans hq))
    refine ⟨s, hh, Durable.lasts h2 rfl ?_ List.mem_cons_self (fun _ => trivial) rfl (fun g => g.elim) (fun g => g.elim) ?_⟩
    · show _ ≤ p.kind.sizeofConfig + _ + _
      omega
    · intro r hr _ _ _ s' hs'
      rw [hh.sec] at hs'; cases hs'; exact hr
  | resources i off s r strip pos fin hh hdirs hnum hr hoff hpos hfin hroom hsmall hfit hend =>
    obtain ⟨q', n, h1, -, h2, h3⟩ := resources_durable p i off s r strip _ pos fin hh hdirs hnum hr hoff rfl hpos hfin
      hroom hsmall hfit hend
    obtain ⟨rfl, -⟩ := Prod.mk.inj (Except.ok.inj (h1.symm.trans hq))
    refine ⟨s, hh, Durable.lasts h3 rfl ?_ List.mem_cons_self (fun g => by cases g) rfl (fun g => g.elim) (fun g => g.elim)
      fun r hr _ _ _ => hr⟩
    show n ≤ dataEndOf r.es _ - ceilTo off 4 + 3
    rw [← hpos, ← hfin]; omega
  | bound i off s l strip hh hdirs hnum hl hoff hstrip hsize hroom hterm hhead =>
    obtain ⟨q', h1, h0, h2⟩ := bound_written p i off s l strip hh hdirs hnum hl hoff hstrip hsize _ rfl hroom hterm
    obtain ⟨rfl, -⟩ := Prod.mk.inj (Except.ok.inj (h1.symm.trans hq))
    refine ⟨s, hh, Durable.lasts h2 rfl (Nat.le_refl _) List.mem_cons_self (fun _ => trivial) rfl (fun g => g.elim)
      (fun _ => ⟨rfl, by rw [h0.nt]; exact hhead, ?_⟩) fun r hr _ _ _ => hr⟩
    rw [h0.nt]
    exact ⟨by show (p.nt.dirs.set _ _).length = _; rw [List.length_set]; exact hdirs.slots, hdirs.count⟩

/-! ### What later calls leave alone -/

theorem and_one_of {x : Nat} : (x &&& 65534) &&& 1 = 0 := by
  rw [Nat.and_assoc, show 65534 &&& 1 = 0 from rfl, Nat.and_zero]

theorem NtUpd.flag {ids : List Nat} {last : Prop} {u : NtHdr → NtHdr} (hu : NtUpd ids last u) (n : NtHdr) (h : n.chars &&& 1 = 0) :
    (u n).chars &&& 1 = 0 := by
  induction hu with
  | nil => exact h
  | cons hf _ ih =>
    cases hf with
    | dir => exact ih
    | size => exact ih
    | flags => exact and_one_of

theorem NtUpd.entry {ids : List Nat} {last : Prop} {u : NtHdr → NtHdr} (hu : NtUpd ids last u) {k : Nat} (hk : k ∉ ids) (n : NtHdr) :
    (u n).getDirRva k = n.getDirRva k ∧ (u n).getDirSize k = n.getDirSize k ∧ (u n).directoryExists k = n.directoryExists k := by
  have h1 := hu.other hk n
  have h2 := (hu.keeps n).nr
  unfold NtHdr.getDirRva NtHdr.getDirSize NtHdr.directoryExists NtHdr.dirAt
  rw [h1, h2]
  exact ⟨rfl, rfl, rfl⟩

/-- What a call has written stays, if a later call is made for something else. -/
theorem DirEdit.Lasts.step {e f : DirEdit} {p q r : Image} {d : Nat × Nat} (h : e.Lasts p q) (hf : f.Ready q) (hr : f.run q = .ok (r, d))
    (hc : e.Clear p.kind q.secs.length f) : e.Lasts p r := by
  obtain ⟨s, L, x, id, dir, raw, h⟩ := h
  obtain ⟨s', u, hu, hb⟩ := DirEdit.run_become hf.inside hr
  have hid := hc.stores id h.id_mem
  have hn : r.nt = u q.nt := by rw [hb]; rfl
  obtain ⟨k1, k2, k3⟩ := hu.entry hid q.nt
  have hk := hu.keeps q.nt
  have rk : r.kind = q.kind := by rw [hb]; rfl
  have hsh : Shown p r e.sec s (e.extent p.kind).1 L x id dir raw := by
    by_cases he : e.sec = f.sec
    · obtain ⟨t, ht, hfr, -⟩ := hf.lasts hr
      rw [← he] at ht hfr
      rw [h.shown.kind] at hfr
      refine h.shown.framed ht hfr rk (by rw [hn]; exact hk.base) (by rw [hn]; exact k1) (by rw [hn]; exact k2)
        (by unfold Image.hasDir; rw [hn]; exact k3) ?_ (fun g => ?_)
      · have h1 := hc.part he
        have h2 := h.len
        omega
      · rw [he]
        exact hc.raw he (h.rawOnly g)
    · obtain ⟨r', d', g1, g2, -⟩ := hf.run
      obtain ⟨rfl, -⟩ := Prod.mk.inj (Except.ok.inj (g1.symm.trans hr))
      refine h.shown.other rk (by rw [hn]; exact hk.base) (by rw [hn]; exact hk.sa) (by rw [hn]; exact k1) (by rw [hn]; exact k2)
        (by unfold Image.hasDir; rw [hn]; exact k3) fun t ht => ?_
      refine ht.alike ?_ g2 (by rw [hb]; exact Nat.le_refl _)
      rw [hb]; exact Alike.of_become q (Ne.symm he) s' hu
  refine ⟨s, L, x, id, dir, raw, h.id_mem, h.len, h.rawOnly, hsh, fun g => ?_, fun g => ?_, h.reads⟩
  · rw [hn]; exact hu.flag _ (h.flag g)
  · obtain ⟨b1, b2, b3⟩ := h.bound g
    refine ⟨b1, by rw [hn, hk.sh]; exact b2, ?_⟩
    rw [hn]
    exact ⟨hk.dl.trans b3.slots, by rw [hk.nr]; exact b3.count⟩

theorem DirEdit.Lasts.now {e : DirEdit} {p q : Image} (h : e.Lasts p q) : e.Reads p q := by
  obtain ⟨s, L, x, id, dir, raw, h⟩ := h
  exact h.reads q h.shown h.flag

theorem DirEdit.Lasts.noHdr {e : DirEdit} {p q : Image} (h : e.Lasts p q) : e.Lasts p q.noHdr := by
  obtain ⟨s, L, x, id, dir, raw, h⟩ := h
  refine ⟨s, L, x, id, dir, raw, h.id_mem, h.len, h.rawOnly, ?_, h.flag, h.bound, h.reads⟩
  refine h.shown.other rfl rfl rfl rfl rfl rfl fun t ht => ?_
  exact ht.alike (noHdr_alike _ _) (ht.valid.congr rfl rfl rfl rfl) (Nat.zero_le _)

/-- … and it is in every file saved then. -/
theorem DirEdit.Lasts.saved {e : DirEdit} {p q w : Image} (h : e.Lasts p q) (hw : SavedLoaded q w) : e.Reads p w := by
  have h1 := h.noHdr.now
  obtain ⟨s, L, x, id, dir, raw, h⟩ := h
  have hnum := numRva_pos h.shown.rva
  obtain ⟨w1, w2⟩ := hw.reads hnum
  refine h1.as w1 ?_
  intro i l off save strip he
  subst he
  obtain ⟨rfl, b2, b3⟩ := h.bound trivial
  have hlt : 11 < q.nt.numRva := by
    have := h.shown.rva
    unfold NtHdr.getDirRva at this
    split at this
    · cases this
    · next g => exact Nat.lt_of_not_le g
  have hbd : q.boundDir.1 = dir.1 := by
    have := h.shown.rva
    unfold NtHdr.getDirRva at this
    rw [if_neg (by show ¬ q.nt.numRva ≤ 11; omega), NtHdr.dirAt_ok (by show 11 < _; have := b3.slots; omega)] at this
    have := Except.ok.inj this
    unfold Image.boundDir
    rw [List.getElem?_eq_getElem (by have := b3.slots; omega)]
    exact this
  exact w2 ⟨hlt, by rw [hbd]; omega⟩ (by rw [hbd]; exact b2) _ h1

/-- A section after realigning. -/
theorem realign_host {q r : Image} {a k : Nat} {t : Sec} (ha : q.Realignable a) (hv : ValidTable r) (hr : q.realignFile a = .ok r)
    (ht : Host q k t) : ∃ t', Host r k t' ∧ t'.va = t.va ∧ t'.memory q.nt.secAlign = t.memory q.nt.secAlign ∧
      (k + 1 ≠ q.secs.length → t'.data = t.data ++ zeros (ceilTo t.rawSize a - t.data.length)) := by
  obtain ⟨a1, a2, a3⟩ := realign_secs ha hr
  have en : r.nt = { q.nt with fileAlign := a } := by rw [a1]
  obtain ⟨t', b1, b2, b3, b4, b5⟩ := a3 _ t ht.sec
  obtain ⟨hv0, -, hd, hrw, h32⟩ := ha.sec t (List.mem_of_getElem? ht.sec)
  have evs : t'.vsize = t.vsize := by rw [b2]
  have eva : t'.va = t.va := by rw [b2]
  have ers : t'.rawSize = t'.data.length := by rw [b2]
  have esp : t'.span q.nt.secAlign = t.span q.nt.secAlign := by rw [span_of hv0, span_of (by rw [evs]; exact hv0), evs]
  have eas : t.alignedVS q.nt.secAlign = t.span q.nt.secAlign := by
    have hvs : t.vsize ≤ ceilTo t.vsize q.nt.secAlign := ceilTo_ge ha.sa.pos
    rw [alignedVS_of hv0, span_of hv0]
    rw [span_of hv0] at h32
    exact alignUp_of_le ha.sa (by omega) (by omega)
  have eas' : t'.alignedVS q.nt.secAlign = t'.span q.nt.secAlign := by
    rw [esp, ← eas]; exact congrArg (fun x => x.2.1) b3
  have emem : t'.memory q.nt.secAlign = t.memory q.nt.secAlign := by
    have : t'.virt q.nt.secAlign = t.virt q.nt.secAlign := congrArg (fun x => x.2.2) b3
    unfold Sec.virt at this
    rw [eas, eas'] at this
    exact this
  have hlen : t'.data.length ≤ ceilTo t.rawSize a := by
    by_cases hi : k + 1 = q.secs.length
    · rw [b5 hi]; have := strip_length_le t.data; omega
    · rw [b4 hi, List.length_append, zeros_length]; omega
  refine ⟨t', ⟨hv, b1, by rw [a1, eva]; exact ht.hdr, by rw [eva]; exact ht.pos, ?_, ?_⟩, eva, emem, b4⟩
  · rw [ers, en]; exact ceilTo_ge ha.pow.pos
  · rw [ers, en]
    show ceilTo _ a ≤ t'.span q.nt.secAlign
    rw [esp]
    exact Nat.le_trans (ceilTo_least ha.pow.pos (ceilTo_dvd _ _) hlen) hrw

/-- … and after realigning. -/
theorem DirEdit.Lasts.realigned {e : DirEdit} {p q r : Image} {a : Nat} (h : e.Lasts p q) (hv : ValidTable r) (ha : q.Realignable a)
    (hr : q.realignFile a = .ok r) (hl : e.ReadsRaw → e.sec + 1 ≠ q.secs.length) : e.Lasts p r := by
  obtain ⟨s, L, x, id, dir, raw, h⟩ := h
  obtain ⟨a1, -, -⟩ := realign_secs ha hr
  have en : r.nt = { q.nt with fileAlign := a } := by rw [a1]
  refine ⟨s, L, x, id, dir, raw, h.id_mem, h.len, h.rawOnly, ?_, fun g => by rw [en]; exact h.flag g, fun g => ?_, h.reads⟩
  · obtain ⟨t, t1, t2, t3, t4, t5⟩ := h.shown.sec
    obtain ⟨t', ht, eva, emem, b4⟩ := realign_host ha hv hr t1
    have sa : r.nt.secAlign = q.nt.secAlign := by rw [en]
    refine ⟨by rw [a1]; exact h.shown.kind, by rw [en]; exact h.shown.base, by rw [en]; exact h.shown.rva, by rw [en]; exact h.shown.size,
      by unfold Image.hasDir; rw [en]; exact h.shown.has, t', ht,
      eva.trans t2, by rw [sa, emem]; exact t3, by rw [sa, emem]; exact t4, fun g => ?_⟩
    have g5 := t5 g
    rw [b4 (hl (h.rawOnly g))]
    exact ⟨by rw [List.length_append]; exact Nat.le_trans g5.1 (Nat.le_add_right _ _),
      by rw [slice_append_left g5.1]; exact g5.2⟩
  · obtain ⟨c1, c2, c3⟩ := h.bound g
    rw [en]
    exact ⟨c1, c2, ⟨c3.slots, c3.count⟩⟩

/-! ### Several calls -/

/-- Each call finds the room it needs when it is made. -/
def ReadyAll (p : Image) : List DirEdit → Prop
  | [] => True
  | e :: es => e.Ready p ∧ ∀ q d, e.run p = .ok (q, d) → ReadyAll q es

theorem DirEdit.Lasts.steps {e : DirEdit} {p q r : Image} {es : List DirEdit} {ds : List (Nat × Nat)} (h : e.Lasts p q)
    (hr : ReadyAll q es) (hc : ∀ f ∈ es, e.Clear p.kind q.secs.length f) (hq : runEdits q es = .ok (r, ds)) : e.Lasts p r := by
  induction es generalizing q ds with
  | nil =>
    obtain ⟨rfl, -⟩ := Prod.mk.inj (Except.ok.inj hq)
    exact h
  | cons f es ih =>
    obtain ⟨q1, d, ds', h1, h2, -⟩ := runEdits_cons hq
    refine ih (h.step hr.1 h1 (hc f List.mem_cons_self)) (hr.2 q1 d h1) (fun g hg => ?_) h2
    rw [(hr.1.stepped h1).count]
    exact hc g (List.mem_cons_of_mem _ hg)

theorem DirEdit.Reads.from {p q w : Image} {e : DirEdit} (h : e.Reads q w) (hk : q.kind = p.kind) (hb : q.nt.imageBase = p.nt.imageBase)
    (hs : ∀ (i : Nat) (s : Sec), p.secs[i]? = some s → ∃ t, q.secs[i]? = some t ∧ t.va = s.va) : e.Reads p w := by
  cases e with
  | config i c off wse wlock save strip =>
    intro s h1
    obtain ⟨t, h2, h3⟩ := hs _ _ h1
    have := h t h2
    rw [hk, hb, h3] at this
    exact this
  | _ => exact h

/-- What the calls keep of the image. -/
structure KeptBy (p q : Image) : Prop where
  kind : q.kind = p.kind
  nt : NtKeeps p.nt q.nt
  count : q.secs.length = p.secs.length
  hdr : q.hdrData = p.hdrData
  vas : ∀ (i : Nat) (s : Sec), p.secs[i]? = some s → ∃ t, q.secs[i]? = some t ∧ t.va = s.va

theorem DirEdit.Ready.kept {p q : Image} {e : DirEdit} {d : Nat × Nat} (h : e.Ready p) (hq : e.run p = .ok (q, d)) : KeptBy p q := by
  obtain ⟨s', u, hu, hb⟩ := DirEdit.run_become h.inside hq
  have hst := h.stepped hq
  refine ⟨by rw [hb]; rfl, by rw [hb]; exact hu.keeps p.nt, hst.count, by rw [hb]; rfl, fun i s hs => ?_⟩
  by_cases hi : i = e.sec
  · obtain ⟨s1, h1, t, h2, h3, -⟩ := hst.again
    rw [hi, h1] at hs
    cases hs
    exact ⟨t, by rw [hi]; exact h2.sec, by rw [h3]⟩
  · exact ⟨s, by rw [hst.others i hi]; exact hs, rfl⟩

theorem NtKeeps.trans {a b c : NtHdr} (h : NtKeeps a b) (g : NtKeeps b c) : NtKeeps a c :=
  ⟨g.sa.trans h.sa, g.fa.trans h.fa, g.base.trans h.base, g.nr.trans h.nr, g.dl.trans h.dl, g.sh.trans h.sh⟩

theorem KeptBy.trans {a b c : Image} (h : KeptBy a b) (g : KeptBy b c) : KeptBy a c := by
  refine ⟨g.kind.trans h.kind, h.nt.trans g.nt, g.count.trans h.count, g.hdr.trans h.hdr, fun i s hs => ?_⟩
  obtain ⟨t, h1, h2⟩ := h.vas i s hs
  obtain ⟨u, h3, h4⟩ := g.vas i t h1
  exact ⟨u, h3, h4.trans h2⟩

theorem KeptBy.refl (p : Image) : KeptBy p p :=
  ⟨rfl, ⟨rfl, rfl, rfl, rfl, rfl, rfl⟩, rfl, rfl, fun _ s hs => ⟨s, hs, rfl⟩⟩

theorem runEdits_shared {p : Image} (es : List DirEdit) (hr : ReadyAll p es)
    (hc : es.Pairwise (DirEdit.Clear p.kind p.secs.length)) :
    ∃ q ds, runEdits p es = .ok (q, ds) ∧ KeptBy p q ∧ (p.Orderly → q.Orderly) ∧ (ValidTable p → ValidTable q) ∧
      ∀ e ∈ es, ∃ p1, KeptBy p p1 ∧ e.Lasts p1 q := by
  induction es generalizing p with
  | nil => exact ⟨p, [], rfl, KeptBy.refl p, id, id, by simp⟩
  | cons a es ih =>
    obtain ⟨q1, d, h1, h2, -⟩ := hr.1.run
    have hk := hr.1.kept h1
    have hp := List.pairwise_cons.mp hc
    obtain ⟨q, ds, g1, g2, g3, g4, g5⟩ := ih (hr.2 q1 d h1) (by rw [hk.kind, hk.count]; exact hp.2)
    refine ⟨q, d :: ds, runEdits_of h1 g1, hk.trans g2, fun h => g3 (h.step (hr.1.stepped h1)), fun _ => g4 h2, fun e he => ?_⟩
    rcases List.mem_cons.mp he with rfl | he
    · obtain ⟨s, -, -, hl⟩ := hr.1.lasts h1
      exact ⟨p, KeptBy.refl p, hl.steps (hr.2 q1 d h1) (by rw [hk.count]; exact hp.1) g1⟩
    · obtain ⟨p1, k1, k2⟩ := g5 e he
      exact ⟨p1, hk.trans k1, k2⟩

/-- C90: several directories may be put into one section. If each call finds the room it needs when it is made, and the calls write
    to different parts of the section and store different directories, then in the end all directories are read: on the image, and
    on every image loaded from a file saved then. Partial: see `DirEdit.Ready` for the calls covered. -/
theorem C90_shared_partial (p : Image) (es : List DirEdit) (hr : ReadyAll p es)
    (hc : es.Pairwise (DirEdit.Clear p.kind p.secs.length)) :
    ∃ q ds, runEdits p es = .ok (q, ds) ∧ (ValidTable p → ValidTable q) ∧
      ∀ e ∈ es, e.Reads p q ∧ ∀ w, SavedLoaded q w → e.Reads p w := by
  obtain ⟨q, ds, h1, -, -, h2, h3⟩ := runEdits_shared es hr hc
  refine ⟨q, ds, h1, h2, fun e he => ?_⟩
  obtain ⟨p1, k, hl⟩ := h3 e he
  exact ⟨hl.now.from k.kind k.nt.base k.vas, fun w hw => (hl.saved hw).from k.kind k.nt.base k.vas⟩

/-- C90: the whole workflow for shared sections: rebuilding, realigning, saving and loading. Partial: as before, and load config and bound
    imports must not be in the last section when the file is realigned (`C89_last_section`). -/
theorem C90_workflow_partial (p : Image) (es : List DirEdit) (a : Nat) (hp : p.Orderly) (hr : ReadyAll p es)
    (hc : es.Pairwise (DirEdit.Clear p.kind p.secs.length)) (hn : p.nt.numRva ≠ 0)
    (hl : ∀ e ∈ es, e.ReadsRaw → e.sec + 1 ≠ p.secs.length)
    (h1 : 512 ≤ a) (h2 : Pow2 a) (h3 : a ≤ p.nt.secAlign) (h4 : p.nt.fileAlign ≤ a) :
    ∃ q ds r, runEdits p es = .ok (q, ds) ∧ q.realignFile a = .ok r ∧ (∀ e ∈ es, e.Reads p r) ∧
      (∀ s ∈ r.secs, s.data.length = s.rawSize) ∧ (∀ w, SavedLoaded r w → ∀ e ∈ es, e.Reads p w) ∧
      ∀ (strip chg strict dbg : Bool) (pre : List (Nat × Nat)), pre.length = 16 → (∀ d ∈ pre, d.1 < 2 ^ 32) → r.Roomy strip chg →
        ∃ q2 out w, r.rebuildPe strip chg false = .ok (q2, out) ∧ load p.kind strict false dbg pre out = .ok w ∧
          ∀ e ∈ es, e.Reads p w := by
  obtain ⟨q, ds, g1, g2, g3, -, g5⟩ := runEdits_shared es hr hc
  have ho := g3 hp
  have ha : q.Realignable a := ho.realignable h1 h2 (by rw [g2.nt.sa]; exact h3) (by rw [g2.nt.fa]; exact h4)
  obtain ⟨r, h5, -⟩ := C53_realign_file q a ha.min ha.pow ha.le ha.sec
  obtain ⟨hro, hrd⟩ := ho.realigned ha h5
  have hlast : ∀ e ∈ es, ∃ p1, KeptBy p p1 ∧ e.Lasts p1 r := fun e he => by
    obtain ⟨p1, k, hle⟩ := g5 e he
    exact ⟨p1, k, hle.realigned hro.table ha h5 (by rw [g2.count]; exact hl e he)⟩
  have hsave : ∀ w, SavedLoaded r w → ∀ e ∈ es, e.Reads p w := fun w hw e he => by
    obtain ⟨p1, k, hle⟩ := hlast e he
    exact (hle.saved hw).from k.kind k.nt.base k.vas
  refine ⟨q, ds, r, g1, h5, fun e he => ?_, hrd, hsave, fun strip chg strict dbg pre k1 k2 hroom => ?_⟩
  · obtain ⟨p1, k, hle⟩ := hlast e he
    exact hle.now.from k.kind k.nt.base k.vas
  · have hsv := hro.saveable hrd hroom
    have nr : r.nt = { q.nt with fileAlign := a } := by rw [(realign_secs ha h5).1]
    have kr : r.kind = p.kind := by rw [(realign_secs ha h5).1]; exact g2.kind
    obtain ⟨q2, out, e3⟩ := C18_completes_unsaved r strip chg hsv.sized hsv.table.fa
      (by rw [nr]; show q.nt.numRva ≠ 0; rw [g2.nt.nr]; exact hn) (fun s hs => by rw [hrd s hs]; omega) hroom.heads
    obtain ⟨w, e4, -⟩ := C19_save_load r q2 strip chg false strict dbg out pre k1 k2 hsv e3
    have hw : SavedLoaded r w := ⟨strip, chg, false, strict, dbg, pre, q2, out, k1, k2, hsv, e3, e4⟩
    rw [kr] at e4
    exact ⟨q2, out, w, e3, e4, hsave w hw⟩

/-! ### Room in the last section -/

def DirEdit.IsImports : DirEdit → Prop
  | .imports .. => True
  | _ => False

instance DirEdit.decIsImports : DecidablePred DirEdit.IsImports := fun e => by
  cases e <;> unfold DirEdit.IsImports <;> infer_instance

theorem boundCount_le (l : List BoundMod) : 8 * boundCount l + 8 ≤ boundSize l := by
  unfold boundCount boundSize
  have h2 : ∀ (f : BoundRef → Nat) (rs : List BoundRef), 8 * rs.length ≤ (rs.map fun r => 8 + f r).sum := by
    intro f rs
    induction rs with
    | nil => simp
    | cons r rs ih => simp only [List.map_cons, List.sum_cons, List.length_cons]; omega
  induction l with
  | nil => simp
  | cons m l ih =>
    have := h2 (fun r => r.name.length + 1) m.refs
    simp only [List.map_cons, List.sum_cons]
    omega

/-- The number of bytes, from the start of the section, that the call asks for. -/
def DirEdit.need (k : Kind) : DirEdit → Nat
  | .exports i info l off save strip =>
    (DirEdit.extent k (.exports i info l off save strip)).1 + (DirEdit.extent k (.exports i info l off save strip)).2
  | .imports .. => 0
  | .relocs _ l off _ _ => ceilTo off 4 + (ceilTo off 4 - off) + relocBytes l
  | .config i c off wse wlock save strip =>
    (DirEdit.extent k (.config i c off wse wlock save strip)).1 + (DirEdit.extent k (.config i c off wse wlock save strip)).2
  | .resources _ r off _ _ =>
    dataEndOf r.es (ceilTo off 4 + ((ceilTo off 4 - off) + (16 + 8 * r.es.length + tablesOf r.es) + namesIn r.es))
  | .bound _ l off _ _ => ceilTo off 4 + boundSize l
  | .tls .. => 0

/-- The call `e` leaves room in its section for the call `f`: the section is the last one, which can grow; or `e` removes no null
    bytes from its raw data, and what `f` asks for is not more than the raw data. Not for imports, which have to come first
    (`C90_imports_cut`). -/
def DirEdit.LeavesRoom (p : Image) (e f : DirEdit) : Prop :=
  e.sec = f.sec → ¬ f.IsImports ∧ (f.sec + 1 = p.secs.length ∨
    e.strip = false ∧ ∀ s ∈ p.secs[f.sec]?, f.need p.kind ≤ s.data.length)

instance DirEdit.decLeavesRoom (p : Image) (e f : DirEdit) : Decidable (e.LeavesRoom p f) := by
  unfold DirEdit.LeavesRoom; infer_instance

/-- There is room for the call in another image as well, in which its section is at least as large and has the same bytes where the call
    writes to. -/
theorem DirEdit.Ready.again {p q : Image} {f : DirEdit} {s t : Sec} (hf : f.Ready p) (h1 : p.secs[f.sec]? = some s) (ht : Host q f.sec t)
    (hk : KeptBy p q) (hva : t.va = s.va) (himp : ¬ f.IsImports) (hlast : f.sec + 1 = p.secs.length ∨ f.need p.kind ≤ s.data.length)
    (r1 : s.data.length ≤ t.data.length)
    (r3 : ∀ o, (f.extent p.kind).1 ≤ o → o < (f.extent p.kind).1 + (f.extent p.kind).2 → t.data.getD o 0 = s.data.getD o 0) :
    f.Ready q := by
  have ho : p.nt.DirsOk → q.nt.DirsOk := fun g => ⟨hk.nt.dl.trans g.slots, by rw [hk.nt.nr]; exact g.count⟩
  have hn : ∀ {k}, k < p.nt.numRva → k < q.nt.numRva := fun g => by rw [hk.nt.nr]; exact g
  have hroom : ∀ {n}, n ≤ f.need p.kind → HostRoom p f.sec s n → HostRoom q f.sec t n := fun {n} gn g => by
    unfold HostRoom at g ⊢
    by_cases hl : f.sec + 1 = p.secs.length
    · rw [if_pos hl] at g
      rw [if_pos (by rw [hk.count]; exact hl), hva, hk.nt.sa]; exact g
    · rw [if_neg hl] at g
      rw [if_neg (by rw [hk.count]; exact hl)]
      have h2 := hlast.resolve_left hl
      have h3 := ht.data
      refine ⟨fun h0 => ?_, by omega⟩
      rw [h0] at r1
      exact g.1 (List.length_eq_zero_iff.mp (Nat.le_zero.mp r1))
  cases hf with
  | exports i off s' info l strip lo hi hh hdirs hnum hinfo hl hrange hoff hroom' hend hout =>
    obtain rfl : s = s' := Option.some.inj (h1.symm.trans hh.sec)
    refine .exports i off t info l strip lo hi ht (ho hdirs) (hn hnum) hinfo hl hrange hoff (hroom ?_ hroom') ?_ (by rw [hva]; exact hout)
    · obtain ⟨m1, m2⟩ := hrange.min_max
      show _ ≤ ceilTo off 4 + exportSize info l _ _
      rw [m1, m2]; exact Nat.le_refl _
    rw [hk.nt.sa]
    rcases hend with g | g | g
    · exact .inl g
    · exact .inr (.inl (by omega))
    · exact .inr (.inr g)
  | imports => exact absurd trivial himp
  | relocs i off s' l strip hh hdirs hnum hne hok hoff hroom' =>
    obtain rfl : s = s' := Option.some.inj (h1.symm.trans hh.sec)
    exact .relocs i off t l strip ht (ho hdirs) (hn hnum) hne hok hoff (hroom (Nat.le_refl _) hroom')
  | config i off s' c strip hh hdirs hnum hfit hoff hstrip N hN hroom' hbase hb64 hlocks =>
    obtain rfl : s = s' := Option.some.inj (h1.symm.trans hh.sec)
    exact .config i off t c strip ht (ho hdirs) (hn hnum) (by rw [hk.kind]; exact hfit) hoff
      (by rw [hk.count]; exact hstrip) N (by rw [hk.kind]; exact hN)
      (hroom (by show N ≤ ceilTo _ _ + (p.kind.sizeofConfig + _ + _); omega) hroom') (by rw [hva, hk.kind, hk.nt.base]; exact hbase)
      (by rw [hk.nt.base]; exact hb64) (by rw [hk.kind, hk.nt.base]; exact hlocks)
  | resources i off s' r strip pos fin hh hdirs hnum hr hoff hpos hfin hroom' hsmall hfit hend =>
    obtain rfl : s = s' := Option.some.inj (h1.symm.trans hh.sec)
    refine .resources i off t r strip pos fin ht (ho hdirs) (hn hnum) hr hoff hpos hfin (hroom (by rw [hfin, hpos]; exact Nat.le_refl _) hroom') hsmall ?_ ?_
    · rcases hfit with g | g | g
      · exact .inl g
      · exact .inr (.inl g)
      · exact .inr (.inr (by omega))
    · rw [hk.nt.sa]
      rcases hend with g | g | g
      · exact .inl g
      · exact .inr (.inl (by omega))
      · exact .inr (.inr g)
  | bound i off s' l strip hh hdirs hnum hl hoff hstrip hsize hroom' hterm hhead =>
    obtain rfl : s = s' := Option.some.inj (h1.symm.trans hh.sec)
    refine .bound i off t l strip ht (ho hdirs) (hn hnum) hl hoff (by rw [hk.count]; exact hstrip) hsize
      (hroom (Nat.le_refl _) hroom')
      (fun j hj => ?_) (by rw [hva, hk.nt.sh]; exact hhead)
    have hb := boundCount_le l
    rw [r3 _ (by show ceilTo off 4 ≤ _; omega) (by show _ < ceilTo off 4 + boundSize l; omega)]
    exact hterm j hj

/-- There is still room after another call for the section. -/
theorem DirEdit.Ready.after {p q : Image} {e f : DirEdit} {d : Nat × Nat} (he : e.Ready p) (hf : f.Ready p) (hq : e.run p = .ok (q, d))
    (hc : e.Clear p.kind p.secs.length f) (hs : e.LeavesRoom p f) : f.Ready q := by
  obtain ⟨q', d', g1, g2, -⟩ := he.run
  obtain ⟨rfl, -⟩ := Prod.mk.inj (Except.ok.inj (g1.symm.trans hq))
  have hk := he.kept hq
  by_cases hsec : e.sec = f.sec
  · obtain ⟨himp, hlast⟩ := hs hsec
    obtain ⟨s, h1, ⟨t, ht, hva, -, -, hraw⟩, -⟩ := he.lasts hq
    obtain ⟨r1, r2, r3⟩ := hraw (hlast.symm.imp (fun g => g.1) (fun g => by rw [hsec]; exact g))
    have hpart := hc.part hsec
    rw [hsec] at h1 ht
    exact hf.again h1.sec ht hk hva himp (hlast.imp id fun g => g.2 s h1.sec) r1 fun o _ _ => r3 o (by omega)
  · obtain ⟨s', u, hu, hb⟩ := DirEdit.run_become he.inside hq
    refine hf.alike ?_ g2 (by rw [hk.hdr]; exact Nat.le_refl _)
    rw [hb]; exact Alike.of_become p hsec s' hu

theorem readyAll_of {p : Image} (es : List DirEdit) (hr : ∀ e ∈ es, e.Ready p)
    (hc : es.Pairwise fun e f => e.Clear p.kind p.secs.length f ∧ e.LeavesRoom p f) : ReadyAll p es := by
  induction es generalizing p with
  | nil => trivial
  | cons a es ih =>
    have hp := List.pairwise_cons.mp hc
    have ha := hr a List.mem_cons_self
    refine ⟨ha, fun q d h => ?_⟩
    have hk := ha.kept h
    have hst := ha.stepped h
    refine ih (fun e he => ha.after (hr e (List.mem_cons_of_mem _ he)) h (hp.1 e he).1 (hp.1 e he).2) ?_
    refine List.Pairwise.imp_of_mem ?_ hp.2
    intro e f _ hf hef
    refine ⟨by rw [hk.kind, hk.count]; exact hef.1, fun hs => ?_⟩
    obtain ⟨g1, g2⟩ := hef.2 hs
    refine ⟨g1, ?_⟩
    rw [hk.count]
    by_cases hl : f.sec + 1 = p.secs.length
    · exact .inl hl
    obtain ⟨g3, g4⟩ := g2.resolve_left hl
    refine .inr ⟨g3, fun t ht => ?_⟩
    rw [hk.kind]
    by_cases haf : a.sec = f.sec
    · obtain ⟨-, g5⟩ := (hp.1 f hf).2 haf
      obtain ⟨g6, g7⟩ := g5.resolve_left hl
      obtain ⟨s, hs, ⟨t', c1, c2, -, -, c3⟩, -⟩ := ha.lasts h
      have := (c3 (.inl g6)).1
      rw [haf] at hs c1
      have e1 : t' = t := Option.some.inj (c1.sec.symm.trans ht)
      subst e1
      exact Nat.le_trans (g4 s hs.sec) this
    · rw [hst.others _ (Ne.symm haf)] at ht
      exact g4 t ht

/-- C90: it is enough that there is room for each call alone, if the calls for one section leave room for each other
    (`DirEdit.LeavesRoom`: always so in the last section, which can grow, if imports come first). Then all calls succeed, and all
    directories are read. Partial: see `DirEdit.Ready` for the calls covered. -/
theorem C90_room_partial (p : Image) (es : List DirEdit) (hr : ∀ e ∈ es, e.Ready p)
    (hc : es.Pairwise fun e f => e.Clear p.kind p.secs.length f ∧ e.LeavesRoom p f) :
    ∃ q ds, runEdits p es = .ok (q, ds) ∧ (ValidTable p → ValidTable q) ∧
      ∀ e ∈ es, e.Reads p q ∧ ∀ w, SavedLoaded q w → e.Reads p w :=
  C90_shared_partial p es (readyAll_of es hr hc) (hc.imp fun h => h.1)

/-! ### Cases the theorems apply to, and the case that is excluded -/

/-- A PE32 image with two sections. -/
def twoImage : Image :=
  { kind := .pe32, dos := [0x4d, 0x5a] ++ zeros 58, lfanew := 64, stub := [1, 2, 3],
    nt := { tinyNt 2 0x2400 0 with numRva := 16, dirs := zeroDirs, secAlign := 512, fileAlign := 512 },
    secs := [{ tinySec 512 0x2000 512 0 with data := zeros 512 }, { tinySec 256 0x2200 256 0 with data := zeros 256 }] }

set_option maxRecDepth 8192 in
theorem two_saveable : twoImage.Saveable false true false := saveable_of_check (by decide +kernel)

theorem two_first : Host twoImage 0 { tinySec 512 0x2000 512 0 with data := zeros 512 } :=
  ⟨two_saveable.table, rfl, by decide, by decide, by decide +kernel, by decide⟩

theorem two_second : Host twoImage 1 { tinySec 256 0x2200 256 0 with data := zeros 256 } :=
  ⟨two_saveable.table, rfl, by decide, by decide, by decide +kernel, by decide⟩

/-- Three directories in each of them. -/
def twoEdits : List DirEdit :=
  [.config 0 demoConfig 18 true true true false, .bound 0 demoBound 202 true false,
   .relocs 0 [⟨0x1000, [⟨4, 3⟩, ⟨8, 3⟩, ⟨12, 3⟩]⟩, ⟨0x2000, [⟨0, 10⟩, ⟨8, 10⟩]⟩] 290 true false,
   .imports 1 workImports {} 185 true true false, .exports 1 demoExportInfo demoExports 254 true true,
   .resources 1 demoRes 400 true false]

theorem two_imports : DirEdit.Ready twoImage (.imports 1 workImports {} 185 true true false) := by
  refine .imports 1 185 _ _ _ true false two_second ⟨rfl, by decide⟩ (by decide) (fun _ => by decide) rfl rfl ?_ (by decide)
    232 256 75 ⟨by decide, by decide, by decide⟩ (by decide) (by decide +kernel)
  intro l hl
  have h := workImports_ok l hl
  refine ⟨?_, h.name, h.stamp, h.fresh, fun hk => absurd hk ?_⟩ <;>
  · unfold workImports at hl
    rw [List.mem_singleton] at hl
    subst hl
    decide

theorem two_exports (strip : Bool) : DirEdit.Ready twoImage (.exports 1 demoExportInfo demoExports 254 true strip) :=
  .exports 1 254 _ _ _ strip 5 12 two_second ⟨rfl, by decide⟩ (by decide) demoExportInfo_ok demoExports_ok
    demoExports_range (by decide) (by decide) (Or.inl (by decide)) (by decide)

theorem twoEdits_ready : ∀ e ∈ twoEdits, e.Ready twoImage := by
  unfold twoEdits
  simp only [List.mem_cons, List.not_mem_nil, or_false]
  rintro e (rfl | rfl | rfl | rfl | rfl | rfl)
  · exact .config 0 18 _ _ false two_first ⟨rfl, by decide⟩ (by decide) demoConfig_fits (by decide) (Or.inl rfl) _ rfl
      (by decide) (by decide) (by decide) (by decide)
  · exact .bound 0 202 _ _ false two_first ⟨rfl, by decide⟩ (by decide) demoBound_ok (by decide) (Or.inl rfl) (by decide)
      (by decide) (by decide +kernel) (by decide)
  · exact .relocs 0 290 _ _ false two_first ⟨rfl, by decide⟩ (by decide) (by simp) (by simp [RelocEntry.Ok]) (by decide)
      (by decide)
  · exact two_imports
  · exact two_exports true
  · exact .resources 1 400 _ _ false 536 580 two_second ⟨rfl, by decide⟩ (by decide) demoRes_ok (by decide) (by decide)
      (by decide) (by decide) (by decide) (Or.inr (Or.inl demoRes_len)) (Or.inl demoRes_ne)

theorem twoEdits_clear : twoEdits.Pairwise fun e f => e.Clear twoImage.kind twoImage.secs.length f ∧ e.LeavesRoom twoImage f := by
  decide +kernel

/-- Three directories in each of two sections, realigned, saved and loaded: all six are read. -/
example : ∃ q ds r q2 out w, runEdits twoImage twoEdits = .ok (q, ds) ∧ q.realignFile 512 = .ok r ∧
    r.rebuildPe false true false = .ok (q2, out) ∧ load .pe32 true false true zeroDirs out = .ok w ∧
    (∀ e ∈ twoEdits, e.Reads twoImage q) ∧ ∀ e ∈ twoEdits, e.Reads twoImage w := by
  have hra := readyAll_of twoEdits twoEdits_ready twoEdits_clear
  have hcl := twoEdits_clear.imp fun h => h.1
  obtain ⟨q, ds, r, h1, h2, -, -, -, h3⟩ := C90_workflow_partial twoImage twoEdits 512 two_saveable.orderly hra hcl (by decide)
    (by decide) (by decide) ⟨9, by decide, rfl⟩ (by decide) (by decide)
  obtain ⟨q1, ds1, e1, -, e2⟩ := C90_room_partial twoImage twoEdits twoEdits_ready twoEdits_clear
  rw [h1] at e1
  obtain ⟨rfl, rfl⟩ := Prod.mk.inj (Except.ok.inj e1)
  obtain ⟨⟨q', ds'⟩, h4, h5⟩ := exists_of_okAnd (x := runEdits twoImage twoEdits)
    (f := fun x => okAnd (x.1.realignFile 512) roomyB) (by decide +kernel)
  rw [h1] at h4
  obtain ⟨rfl, rfl⟩ := Prod.mk.inj (Except.ok.inj h4)
  obtain ⟨r', h6, h7⟩ := exists_of_okAnd h5
  rw [h2] at h6
  cases Except.ok.inj h6
  obtain ⟨q2, out, w, h8, h9, h10⟩ := h3 false true true true zeroDirs rfl (by decide) (roomy_of_check h7)
  exact ⟨q, ds, r, q2, out, w, h1, h2, h8, h9, fun e he => (e2 e he).1, h10⟩

/-- Imports after another call for the section: there is room for each of them, they write to different parts and store different
    directories, both calls succeed, but `rebuild_imports` cuts off what is behind its tables, and the relocations are gone. -/
theorem C90_imports_cut : ∃ (e f : DirEdit) (q : Image) (ds : List (Nat × Nat)), e.Ready twoImage ∧ f.Ready twoImage ∧
    e.Clear twoImage.kind twoImage.secs.length f ∧ runEdits twoImage [e, f] = .ok (q, ds) ∧ ¬ e.Reads twoImage q := by
  obtain ⟨⟨q, ds⟩, h1, h2⟩ := exists_of_okAnd (x := runEdits twoImage [
    .relocs 1 [⟨0x1000, [⟨4, 3⟩, ⟨8, 3⟩, ⟨12, 3⟩]⟩, ⟨0x2000, [⟨0, 10⟩, ⟨8, 10⟩]⟩] 256 true false,
    .imports 1 workImports {} 185 true true false])
    (f := fun r => decide (r.1.getRelocations true ≠ .ok [⟨0x1000, [⟨4, 3⟩, ⟨8, 3⟩, ⟨12, 3⟩, ⟨0, 0⟩]⟩, ⟨0x2000, [⟨0, 10⟩, ⟨8, 10⟩]⟩]))
    (by decide +kernel)
  refine ⟨_, _, q, ds, .relocs 1 256 _ _ false two_second ⟨rfl, by decide⟩ (by decide) (by simp) (by simp [RelocEntry.Ok]) (by decide)
    (by decide), two_imports, by decide +kernel, h1, fun h => of_decide_eq_true h2 h.1⟩

end PE
