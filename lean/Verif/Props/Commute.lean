/-
C88: rebuilding different directories in different sections, in any order.
-/
import Verif.Spec.DirEdit
import Verif.Lemmas.Local
import Verif.Lemmas.SaveCheck
import Verif.Props.SurviveEdits
namespace PE

theorem DirEdit.Apart.symm {a b : DirEdit} (h : a.Apart b) : b.Apart a := ⟨fun e => h.sec e.symm, fun x hb ha => h.stores x ha hb⟩

/-- A call that stays inside its section depends on little of the image and changes little of it. -/
theorem DirEdit.local {e : DirEdit} (he : e.Inside) {p P : Image} (ha : Alike e.sec p P) :
    Loca Prod.mk e.sec e.stores p P (e.run p) (e.run P) := by
  cases e with
  | exports i info l off save strip => exact rebuildExports_loc ha info l off save strip fun h => by subst h; exact List.mem_singleton.mpr rfl
  | imports i ls c off save zeroIat strip =>
    refine rebuildImports_loc ha ls he off save zeroIat strip (fun h => ?_) fun h h2 => ?_
    · subst h
      cases zeroIat
      · exact List.mem_singleton.mpr rfl
      · exact List.mem_cons_self
    · subst h; subst h2
      exact List.mem_cons_of_mem _ (List.mem_singleton.mpr rfl)
  | relocs i l off save strip => exact rebuildRelocations_loc ha l off save strip fun h => by subst h; exact List.mem_singleton.mpr rfl
  | config i c off wse wlock save strip =>
    exact rebuildConfig_loc ha c off wse wlock save strip fun h => by subst h; exact List.mem_singleton.mpr rfl
  | resources i r off save strip => exact rebuildResources_loc ha r off save strip fun h => by subst h; exact List.mem_singleton.mpr rfl
  | bound i l off save strip => exact rebuildBound_loc ha l off save strip fun h => by subst h; exact List.mem_singleton.mpr rfl
  | tls i t off wcb wdata e save strip =>
    obtain ⟨h1, h2⟩ := he
    subst h1; subst h2
    exact rebuildTls_loc ha t off e save strip fun h => by subst h; exact List.mem_singleton.mpr rfl

theorem Alike.trans {i : Nat} {p q r : Image} (h : Alike i p q) (g : Alike i q r) : Alike i p r :=
  ⟨g.kind.trans h.kind, ⟨g.nt.sa.trans h.nt.sa, g.nt.fa.trans h.nt.fa, g.nt.base.trans h.nt.base, g.nt.nr.trans h.nt.nr,
    g.nt.dl.trans h.nt.dl, g.nt.sh.trans h.nt.sh⟩, g.count.trans h.count, g.sec.trans h.sec⟩

theorem Alike.refl (i : Nat) (p : Image) : Alike i p p := ⟨rfl, ⟨rfl, rfl, rfl, rfl, rfl, rfl⟩, rfl, rfl⟩

/-- What a successful call makes of the image. -/
theorem DirEdit.run_become {e : DirEdit} (he : e.Inside) {p q : Image} {d : Nat × Nat} (h : e.run p = .ok (q, d)) :
    ∃ s u, NtUpd e.stores (e.sec + 1 = p.secs.length) u ∧ q = p.become e.sec s u := by
  rcases DirEdit.local he (Alike.refl e.sec p) with ⟨x, h1, _⟩ | ⟨s, u, a, hu, h1, _⟩
  · rw [h1] at h; simp at h
  · rw [h1] at h
    exact ⟨s, u, hu, (Prod.mk.inj (Except.ok.inj h)).1.symm⟩

/-- C88: two such calls can be swapped: the same image, the same directories. -/
theorem C88_commute (a b : DirEdit) (ha : a.Inside) (hb : b.Inside) (hab : a.Apart b) (p q r : Image) (d d' : Nat × Nat)
    (h1 : a.run p = .ok (q, d)) (h2 : b.run q = .ok (r, d')) :
    ∃ q', b.run p = .ok (q', d') ∧ a.run q' = .ok (r, d) := by
  obtain ⟨s, u, hu, hq⟩ := DirEdit.run_become ha h1
  have hal : Alike b.sec p q := by rw [hq]; exact Alike.of_become p hab.sec s hu
  rcases DirEdit.local hb hal with ⟨x, _, g⟩ | ⟨t, v, e, hv, g1, g2⟩
  · rw [g] at h2; simp at h2
  · rw [g2] at h2
    obtain ⟨h3, h4⟩ := Prod.mk.inj (Except.ok.inj h2)
    rw [h4] at g1
    refine ⟨_, g1, ?_⟩
    rcases DirEdit.local ha (Alike.of_become p (fun h => hab.sec h.symm) t hv) with ⟨x, k, _⟩ | ⟨s', u', e', hu', k1, k2⟩
    · rw [k] at h1; simp at h1
    · rw [k1] at h1
      obtain ⟨h5, h6⟩ := Prod.mk.inj (Except.ok.inj h1)
      rw [k2, ← h3, ← h5, ← h6]
      rw [become_comm p hab.sec s' t (NtUpd.comm hab.stores (fun h => hab.sec (by omega)) hu' hv)]

/-- C88: the outcome of a call does not depend on calls made for other sections and directories: it succeeds or throws the
    same exception, returns the same directory, leaves the same section. -/
theorem C88_independent (a b : DirEdit) (ha : a.Inside) (hb : b.Inside) (hab : a.Apart b) (p q : Image) (d : Nat × Nat)
    (h : a.run p = .ok (q, d)) :
    (∃ x, b.run p = .error x ∧ b.run q = .error x) ∨
    ∃ r r' d', b.run p = .ok (r, d') ∧ b.run q = .ok (r', d') ∧ r'.secs[b.sec]? = r.secs[b.sec]? ∧
      (∀ k, k ≠ b.sec → r'.secs[k]? = q.secs[k]?) ∧ ∀ k, k ∉ b.stores → r'.nt.dirs[k]? = q.nt.dirs[k]? := by
  obtain ⟨s, u, hu, hq⟩ := DirEdit.run_become ha h
  have hal : Alike b.sec p q := by rw [hq]; exact Alike.of_become p hab.sec s hu
  rcases DirEdit.local hb hal with ⟨x, g, g'⟩ | ⟨t, v, e, hv, g1, g2⟩
  · exact Or.inl ⟨x, g, g'⟩
  · refine Or.inr ⟨_, _, _, g1, g2, (hal.become t hv).sec, fun k hk => ?_, fun k hk => hv.other hk q.nt⟩
    exact List.getElem?_set_ne (fun h => hk h.symm)

theorem runEdits_cons {p r : Image} {e : DirEdit} {es : List DirEdit} {ds : List (Nat × Nat)}
    (h : runEdits p (e :: es) = .ok (r, ds)) :
    ∃ q d ds', e.run p = .ok (q, d) ∧ runEdits q es = .ok (r, ds') ∧ ds = d :: ds' := by
  unfold runEdits at h
  rcases res_cases (e.run p) with ⟨⟨q, d⟩, h1⟩ | ⟨x, h1⟩
  · rw [h1] at h
    rcases res_cases (runEdits q es) with ⟨⟨r', ds'⟩, h2⟩ | ⟨x, h2⟩
    · have h : (runEdits q es >>= fun v => Except.ok (v.1, d :: v.2)) = .ok (r, ds) := h
      rw [h2] at h
      obtain ⟨h3, h4⟩ := Prod.mk.inj (Except.ok.inj h)
      exact ⟨q, d, ds', h1, by rw [h2]; exact congrArg _ (Prod.ext h3 rfl), h4.symm⟩
    · have h : (runEdits q es >>= fun v => Except.ok (v.1, d :: v.2)) = .ok (r, ds) := h
      rw [h2] at h
      cases h
  · rw [h1] at h
    cases h

theorem runEdits_of {p q r : Image} {e : DirEdit} {es : List DirEdit} {d : Nat × Nat} {ds : List (Nat × Nat)}
    (h1 : e.run p = .ok (q, d)) (h2 : runEdits q es = .ok (r, ds)) : runEdits p (e :: es) = .ok (r, d :: ds) := by
  unfold runEdits
  rw [h1]
  show (runEdits q es >>= fun v => Except.ok (v.1, d :: v.2)) = _
  rw [h2]
  rfl

theorem runEdits_append {p r : Image} {es fs : List DirEdit} {ds : List (Nat × Nat)} (h : runEdits p (es ++ fs) = .ok (r, ds)) :
    ∃ q ds1 ds2, runEdits p es = .ok (q, ds1) ∧ runEdits q fs = .ok (r, ds2) ∧ ds = ds1 ++ ds2 := by
  induction es generalizing p ds with
  | nil => exact ⟨p, [], ds, rfl, h, rfl⟩
  | cons e es ih =>
    obtain ⟨q, d, ds', h1, h2, rfl⟩ := runEdits_cons h
    obtain ⟨q', d1, d2, h3, h4, rfl⟩ := ih h2
    exact ⟨q', d :: d1, d2, runEdits_of h1 h3, h4, rfl⟩

/-- C88: calls for different sections and directories may be made in any order: if they succeed in one order, they succeed in
    every order, the image is the same, and every call returns the same directory. -/
theorem C88_any_order (es fs : List DirEdit) (hp : es.Perm fs) (hin : ∀ e ∈ es, e.Inside) (hap : es.Pairwise DirEdit.Apart)
    (p q : Image) (ds : List (Nat × Nat)) (h : runEdits p es = .ok (q, ds)) :
    ∃ ds', runEdits p fs = .ok (q, ds') ∧ (es.zip ds).Perm (fs.zip ds') := by
  induction hp generalizing p ds with
  | nil => exact ⟨ds, h, List.Perm.refl _⟩
  | cons e _ ih =>
    obtain ⟨q1, d, ds1, h1, h2, rfl⟩ := runEdits_cons h
    obtain ⟨ds2, h3, h4⟩ := ih (fun x hx => hin x (List.mem_cons_of_mem _ hx)) (List.pairwise_cons.mp hap).2 q1 ds1 h2
    exact ⟨d :: ds2, runEdits_of h1 h3, h4.cons _⟩
  | swap a b l =>
    obtain ⟨q1, d, ds1, h1, h2, rfl⟩ := runEdits_cons h
    obtain ⟨q2, d', ds2, h3, h4, rfl⟩ := runEdits_cons h2
    obtain ⟨q', h5, h6⟩ := C88_commute b a (hin b List.mem_cons_self) (hin a (List.mem_cons_of_mem _ List.mem_cons_self))
      ((List.pairwise_cons.mp hap).1 a List.mem_cons_self) p q1 q2 d d' h1 h3
    exact ⟨d' :: d :: ds2, runEdits_of h5 (runEdits_of h6 h4), List.Perm.swap _ _ _⟩
  | trans g1 _ ih1 ih2 =>
    obtain ⟨ds1, h1, h2⟩ := ih1 hin hap p ds h
    obtain ⟨ds2, h3, h4⟩ := ih2 (fun x hx => hin x (g1.mem_iff.mpr hx))
      ((g1.pairwise_iff fun hab => DirEdit.Apart.symm hab).mp hap) p ds1 h1
    exact ⟨ds2, h3, h2.trans h4⟩

/-! ### All directories can be read -/

/-- What the readers are to give on `w` after the call was made for the image `p` (or one with the same section). -/
def DirEdit.Reads (p w : Image) : DirEdit → Prop
  | .exports _ info l _ _ _ => ∃ (inf : ExportInfo) (l' : List ExportFn), w.getExports = .ok (some inf, l') ∧
      l'.Pairwise (fun a b => a.ordinal < b.ordinal) ∧ (l'.map ExportFn.shown).Perm (l.map ExportFn.shown) ∧
      inf.chars = info.chars ∧ inf.stamp = info.stamp ∧ inf.major = info.major ∧ inf.minor = info.minor ∧
      inf.name = info.name ∧ ∀ lo hi, OrdinalRange l lo hi → inf.base = lo ∧ inf.numFuncs = hi - lo + 1
  | .imports _ ls c _ _ _ _ => ∃ ls' : List ImportLib, w.getImports = .ok ls' ∧ ls'.length = ls.length ∧
      ∀ (k : Nat) (l l' : ImportLib), ls[k]? = some l → ls'[k]? = some l' → l.Same l' c.save c.buildOrig
  | .relocs _ l _ _ _ => w.getRelocations true = .ok (l.map (fun t => ⟨t.rva, t.stored⟩)) ∧
      w.getRelocations false = .ok (l.map RelocTable.active)
  | .config i c off _ _ _ _ => ∀ s, p.secs[i]? = some s → ∃ hs : List Nat, hs.Perm c.handlers ∧ hs.Pairwise (· ≤ ·) ∧
      w.getConfig = .ok { c with
        handlers := hs
        seCount := c.handlers.length
        seTable := if c.handlers = [] then 0 else p.nt.imageBase + s.va + ceilTo off p.kind.ptr + p.kind.sizeofConfig
        lockTable := if c.locks = [] then 0 else
          p.nt.imageBase + s.va + ceilTo off p.kind.ptr + p.kind.sizeofConfig + 4 * c.handlers.length }
  | .resources _ r _ _ _ => ∃ t, w.getResources = .ok t ∧ r.Same t
  | .bound _ l _ _ _ => w.getBound = .ok l
  | .tls _ t _ _ _ _ _ _ => w.getTls = .ok t

/-- There is room for the call, and what it has to write can be written (the hypotheses of the round trips C25, C27, C29, C31,
    C44, C45). Not covered: TLS, and libraries whose existing tables are kept (they may be in one of the other sections). -/
inductive DirEdit.Ready (p : Image) : DirEdit → Prop
  | exports (i off : Nat) (s : Sec) (info : ExportInfo) (l : List ExportFn) (strip : Bool) (lo hi : Nat)
      (hh : Host p i s) (hdirs : p.nt.DirsOk) (hnum : dirExport < p.nt.numRva)
      (hinfo : info.Writable) (hl : ExportsOk l) (hrange : OrdinalRange l lo hi) (hoff : off < 2 ^ 32 - 4)
      (hroom : HostRoom p i s (ceilTo off 4 + exportSize info l lo hi))
      (hend : namesOf l ≠ [] ∨ ceilTo off 4 + exportSize info l lo hi < s.data.length ∨
        ¬ p.nt.secAlign ∣ ceilTo off 4 + exportSize info l lo hi)
      (hout : ∀ f ∈ l, f.name ≠ [] → f.fwd = [] →
        ¬ (s.va + ceilTo off 4 + 4 ≤ f.rva ∧ f.rva < s.va + ceilTo off 4 + exportSize info l lo hi)) :
      Ready p (.exports i info l off true strip)
  | imports (i off : Nat) (s : Sec) (ls : List ImportLib) (c : ImportCfg) (zeroIat strip : Bool)
      (hh : Host p i s) (hdirs : p.nt.DirsOk) (hnum : dirImport < p.nt.numRva) (hnum2 : zeroIat = true → dirIat < p.nt.numRva)
      (hfill : c.fill = false) (hrew : c.rewrite = false) (hl : ∀ l ∈ ls, ¬ l.Kept c.save ∧ l.Ok p i c.save c.buildOrig)
      (hlow : p.kind.ptr = 4 → s.va + off + importNames ls ≤ 2 ^ 31)
      (iat fin need : Nat) (hsz : ImportSizes p.kind.ptr off c ls iat fin need) (hroom : HostRoom p i s (off + need))
      (hend : s.data.length ≤ fin) : Ready p (.imports i ls c off true zeroIat strip)
  | relocs (i off : Nat) (s : Sec) (l : List RelocTable) (strip : Bool)
      (hh : Host p i s) (hdirs : p.nt.DirsOk) (hnum : dirBaseReloc < p.nt.numRva) (hne : l ≠ [])
      (hok : ∀ t ∈ l, t.rva < 2 ^ 32 ∧ ∀ e ∈ t.relocs, e.Ok) (hoff : off < 2 ^ 32 - 4)
      (hroom : HostRoom p i s (ceilTo off 4 + (ceilTo off 4 - off) + relocBytes l)) : Ready p (.relocs i l off true strip)
  | config (i off : Nat) (s : Sec) (c : ConfigInfo) (strip : Bool)
      (hh : Host p i s) (hdirs : p.nt.DirsOk) (hnum : dirLoadConfig < p.nt.numRva) (hfit : c.Fits p.kind.ptr)
      (hoff : off < 2 ^ 32 - 8) (hstrip : strip = false ∨ i + 1 = p.secs.length) (N : Nat)
      (hN : N = ceilTo off p.kind.ptr + p.kind.sizeofConfig + 4 * c.handlers.length + p.kind.ptr * (c.locks.length + 1))
      (hroom : HostRoom p i s N)
      (hbase : p.nt.imageBase + s.va + N < 256 ^ p.kind.ptr) (hb64 : p.nt.imageBase + 2 ^ 32 ≤ 2 ^ 64)
      (hlocks : ∀ r ∈ c.locks, r < 2 ^ 32 ∧ p.nt.imageBase + r < 256 ^ p.kind.ptr ∧ 0 < p.nt.imageBase + r) :
      Ready p (.config i c off true true true strip)
  | resources (i off : Nat) (s : Sec) (r : ResDir) (strip : Bool) (pos fin : Nat)
      (hh : Host p i s) (hdirs : p.nt.DirsOk) (hnum : dirResource < p.nt.numRva) (hr : r.Ok) (hoff : off < 2 ^ 32 - 4)
      (hpos : pos = ceilTo off 4 + ((ceilTo off 4 - off) + (16 + 8 * r.es.length + tablesOf r.es) + namesIn r.es))
      (hfin : fin = dataEndOf r.es pos) (hroom : HostRoom p i s fin) (hsmall : fin + 3 < ceilTo off 4 + 2 ^ 31)
      (hfit : r.Ordered ∨ AllData (fun d => 4 ∣ d.length) r.es ∨ fin + 3 ≤ s.data.length)
      (hend : AllData (fun d => d ≠ []) r.es ∨ ceilTo fin 4 < s.data.length ∨
        (4 ∣ p.nt.secAlign ∧ ¬ p.nt.secAlign ∣ ceilTo fin 4)) : Ready p (.resources i r off true strip)
  | bound (i off : Nat) (s : Sec) (l : List BoundMod) (strip : Bool)
      (hh : Host p i s) (hdirs : p.nt.DirsOk) (hnum : dirBoundImport < p.nt.numRva) (hl : ∀ m ∈ l, m.Ok)
      (hoff : off < 2 ^ 32 - 4) (hstrip : strip = false ∨ i + 1 = p.secs.length) (hsize : boundSize l ≤ 65536)
      (hroom : HostRoom p i s (ceilTo off 4 + boundSize l))
      (hterm : ∀ j < 2, s.data.getD (ceilTo off 4 + 8 * boundCount l + 4 + j) 0 = 0)
      (hhead : p.nt.sizeHeaders < s.va + ceilTo off 4) : Ready p (.bound i l off true strip)

theorem DirEdit.Ready.inside {p : Image} {e : DirEdit} (h : e.Ready p) : e.Inside := by
  cases h <;> trivial

theorem OrdinalRange.unique {l : List ExportFn} {lo hi lo' hi' : Nat} (h : OrdinalRange l lo hi) (g : OrdinalRange l lo' hi') :
    lo = lo' ∧ hi = hi' := by
  obtain ⟨f1, m1, e1⟩ := h.lo_mem
  obtain ⟨f2, m2, e2⟩ := h.hi_mem
  obtain ⟨f3, m3, e3⟩ := g.lo_mem
  obtain ⟨f4, m4, e4⟩ := g.hi_mem
  have a1 := g.le f1 m1
  have a2 := g.le f2 m2
  have a3 := h.le f3 m3
  have a4 := h.le f4 m4
  omega

/-- A call for which there is room succeeds, the section table stays valid, and the directory can be read, now and in every
    file saved then. -/
theorem DirEdit.Ready.run {p : Image} {e : DirEdit} (h : e.Ready p) :
    ∃ q d, e.run p = .ok (q, d) ∧ ValidTable q ∧ e.Reads p q ∧ ∀ w, SavedLoaded q w → e.Reads p w := by
  cases h with
  | exports i off s info l strip lo hi hh hdirs hnum hinfo hl hrange hoff hroom hend hout =>
    obtain ⟨q, h1, h2, inf, l', h3, h4, h5, -, h6, h7, h8, h9, h10, h11, h12, -⟩ := C27_round_trip_partial p i off s info l strip
      lo hi _ _ hh hdirs hnum hinfo hl hrange hoff rfl rfl hroom hend hout
    refine ⟨q, _, h1, h2.valid, ⟨inf, l', h3, h4, h5, h6, h7, h8, h9, h10, fun a b hab => ?_⟩, fun w hw => ?_⟩
    · obtain ⟨rfl, rfl⟩ := hrange.unique hab; exact ⟨h11, h12⟩
    · obtain ⟨inf, l', h3, h4, h5, -, h6, h7, h8, h9, h10, h11, h12, -⟩ := C69_exports_partial p q w i off s info l strip
        lo hi _ _ hh hdirs hnum hinfo hl hrange hoff rfl rfl hroom hend hout _ h1 hw
      refine ⟨inf, l', h3, h4, h5, h6, h7, h8, h9, h10, fun a b hab => ?_⟩
      obtain ⟨rfl, rfl⟩ := hrange.unique hab; exact ⟨h11, h12⟩
  | imports i off s ls c zeroIat strip hh hdirs hnum hnum2 hfill hrew hl hlow iat fin need hsz hroom hend =>
    obtain ⟨q, q', ls', h1, h2, h3, h4, h5, h6⟩ := C29_round_trip_partial p i off s ls c zeroIat strip hh hdirs hnum hnum2 hfill hrew
      (fun l hm => (hl l hm).2) hlow iat fin need hsz hroom hend
    refine ⟨q', _, h1, ?_, ⟨ls', h4, h5, h6⟩, fun w hw => ?_⟩
    · rw [h3]
      have v := h2.valid
      split
      · exact ⟨v.sa, v.fa, v.le, v.fits, v.aligned, v.nonempty, v.contig, v.num, v.count, v.pages⟩
      · exact v
    · exact C69_imports_partial p q' w i off s ls c zeroIat strip hh hdirs hnum hnum2 hfill hrew
        (fun l hm => ⟨(hl l hm).2.name, (hl l hm).2.stamp, (hl l hm).2.fresh, fun hk => absurd hk (hl l hm).1⟩) hlow iat fin need hsz
        hroom hend _ h1 hw
  | relocs i off s l strip hh hdirs hnum hne hok hoff hroom =>
    obtain ⟨q, d, h1, -, -, -, h2, h3, h4, -⟩ := C25_round_trip_partial p i off s l strip hh hdirs hnum hne hok hoff hroom
    exact ⟨q, d, h1, h4, ⟨h2, h3⟩, fun w hw =>
      C69_relocations_partial p q w i off s l strip hh hdirs hnum hne hok hoff hroom _ h1 hw⟩
  | config i off s c strip hh hdirs hnum hfit hoff hstrip N hN hroom hbase hb64 hlocks =>
    obtain ⟨q, h1, h2, h3⟩ := C45_round_trip_partial p i off s c strip hh hdirs hnum hfit hoff hstrip _ N rfl hN hroom hbase hb64
      hlocks
    refine ⟨q, _, h1, h2.valid, fun s' hs => ?_, fun w hw s' hs => ?_⟩
    · rw [hh.sec] at hs; cases hs; exact h3
    · rw [hh.sec] at hs; cases hs
      exact C69_config_partial p q w i off s c strip hh hdirs hnum hfit hoff hstrip _ N rfl hN hroom hbase hb64 hlocks _ h1 hw
  | resources i off s r strip pos fin hh hdirs hnum hr hoff hpos hfin hroom hsmall hfit hend =>
    obtain ⟨q, n, t, h1, h2, -, h3, h4⟩ := C31_round_trip_partial p i off s r strip _ pos fin hh hdirs hnum hr hoff rfl hpos hfin
      hroom hsmall hfit hend
    exact ⟨q, _, h1, h2.valid, ⟨t, h3, h4⟩, fun w hw =>
      C69_resources_partial p q w i off s r strip _ pos fin hh hdirs hnum hr hoff rfl hpos hfin hroom hsmall hfit hend _ h1 hw⟩
  | bound i off s l strip hh hdirs hnum hl hoff hstrip hsize hroom hterm hhead =>
    obtain ⟨q, h1, h2, h3⟩ := C44_round_trip_partial p i off s l strip hh hdirs hnum hl hoff hstrip hsize _ rfl hroom hterm
    exact ⟨q, _, h1, h2.valid, h3, fun w hw =>
      C69_bound_partial p q w i off s l strip hh hdirs hnum hl hoff hstrip hsize _ rfl hroom hterm hhead _ h1 hw⟩

theorem Host.alike {p P : Image} {i : Nat} {s : Sec} (h : Host p i s) (ha : Alike i p P) (hv : ValidTable P)
    (hd : P.hdrData.length ≤ p.hdrData.length) : Host P i s :=
  ⟨hv, ha.sec.trans h.sec, Nat.le_trans hd h.hdr, h.pos, by rw [ha.nt.fa]; exact h.data, by rw [ha.nt.fa, ha.nt.sa]; exact h.raw⟩

theorem HostRoom.alike {p P : Image} {i n : Nat} {s : Sec} (h : HostRoom p i s n) (ha : Alike i p P) : HostRoom P i s n := by
  unfold HostRoom
  rw [ha.count, ha.nt.sa, ha.nt.fa]
  exact h

/-- There is still room after calls for other sections. -/
theorem DirEdit.Ready.alike {p P : Image} {e : DirEdit} (h : e.Ready p) (ha : Alike e.sec p P) (hv : ValidTable P)
    (hd : P.hdrData.length ≤ p.hdrData.length) : e.Ready P := by
  have ho : p.nt.DirsOk → P.nt.DirsOk := fun g => ⟨ha.nt.dl.trans g.slots, by rw [ha.nt.nr]; exact g.count⟩
  have hn : ∀ {k}, k < p.nt.numRva → k < P.nt.numRva := fun g => by rw [ha.nt.nr]; exact g
  cases h with
  | exports i off s info l strip lo hi hh hdirs hnum hinfo hl hrange hoff hroom hend hout =>
    exact .exports i off s info l strip lo hi (hh.alike ha hv hd) (ho hdirs) (hn hnum) hinfo hl hrange hoff (hroom.alike ha)
      (by rw [ha.nt.sa]; exact hend) hout
  | imports i off s ls c zeroIat strip hh hdirs hnum hnum2 hfill hrew hl hlow iat fin need hsz hroom hend =>
    exact .imports i off s ls c zeroIat strip (hh.alike ha hv hd) (ho hdirs) (hn hnum) (fun g => hn (hnum2 g)) hfill hrew
      (fun l hm => ⟨(hl l hm).1, (hl l hm).2.name, (hl l hm).2.stamp, by rw [ha.kind]; exact (hl l hm).2.fresh,
        fun hk => absurd hk (hl l hm).1⟩) (by rw [ha.kind]; exact hlow) iat fin need (by rw [ha.kind]; exact hsz)
      (hroom.alike ha) hend
  | relocs i off s l strip hh hdirs hnum hne hok hoff hroom =>
    exact .relocs i off s l strip (hh.alike ha hv hd) (ho hdirs) (hn hnum) hne hok hoff (hroom.alike ha)
  | config i off s c strip hh hdirs hnum hfit hoff hstrip N hN hroom hbase hb64 hlocks =>
    exact .config i off s c strip (hh.alike ha hv hd) (ho hdirs) (hn hnum) (by rw [ha.kind]; exact hfit) hoff
      (by rw [ha.count]; exact hstrip) N (by rw [ha.kind]; exact hN) (hroom.alike ha) (by rw [ha.kind, ha.nt.base]; exact hbase)
      (by rw [ha.nt.base]; exact hb64) (by rw [ha.kind, ha.nt.base]; exact hlocks)
  | resources i off s r strip pos fin hh hdirs hnum hr hoff hpos hfin hroom hsmall hfit hend =>
    exact .resources i off s r strip pos fin (hh.alike ha hv hd) (ho hdirs) (hn hnum) hr hoff hpos hfin (hroom.alike ha) hsmall hfit
      (by rw [ha.nt.sa]; exact hend)
  | bound i off s l strip hh hdirs hnum hl hoff hstrip hsize hroom hterm hhead =>
    exact .bound i off s l strip (hh.alike ha hv hd) (ho hdirs) (hn hnum) hl hoff (by rw [ha.count]; exact hstrip) hsize
      (hroom.alike ha) hterm (by rw [ha.nt.sh]; exact hhead)

theorem DirEdit.Reads.alike {p P w : Image} {e : DirEdit} (h : e.Reads P w) (ha : Alike e.sec p P) : e.Reads p w := by
  cases e with
  | config i c off wse wlock save strip =>
    intro s hs
    have := h s (ha.sec.trans hs)
    rw [ha.kind, ha.nt.base] at this
    exact this
  | _ => exact h

/-- Several calls for which there is room: the image stays as it was for the calls that follow. -/
theorem runEdits_ready {p : Image} (es fs : List DirEdit) (hr : ∀ e ∈ es ++ fs, e.Ready p)
    (hap : (es ++ fs).Pairwise DirEdit.Apart) :
    ∃ q ds, runEdits p es = .ok (q, ds) ∧ ∀ e ∈ fs, e.Ready q ∧ Alike e.sec p q := by
  induction es generalizing p with
  | nil => exact ⟨p, [], rfl, fun e he => ⟨hr e he, Alike.refl _ _⟩⟩
  | cons a es ih =>
    have ha := hr a List.mem_cons_self
    obtain ⟨q, d, h1, h2, -⟩ := ha.run
    obtain ⟨s, u, hu, hq⟩ := DirEdit.run_become ha.inside h1
    have hp := List.pairwise_cons.mp hap
    have hal : ∀ e ∈ es ++ fs, Alike e.sec p q := fun e he => by
      rw [hq]; exact Alike.of_become p (hp.1 e he).sec s hu
    have hd : q.hdrData.length ≤ p.hdrData.length := by rw [hq]; exact Nat.le_refl _
    obtain ⟨r, ds, h3, h4⟩ := ih (fun e he => (hr e (List.mem_cons_of_mem _ he)).alike (hal e he) h2 hd) hp.2
    refine ⟨r, d :: ds, runEdits_of h1 h3, fun e he => ⟨(h4 e he).1, ?_⟩⟩
    exact (hal e (List.mem_append_right _ he)).trans (h4 e he).2

/-- C88: with room for every one of them, calls for different sections and directories succeed in any order, and then every
    directory can be read: on the image, and on every image loaded from a file saved then. Partial: see `DirEdit.Ready`. -/
theorem C88_all_read_partial (p : Image) (es : List DirEdit) (hr : ∀ e ∈ es, e.Ready p) (hap : es.Pairwise DirEdit.Apart) :
    ∃ q ds, runEdits p es = .ok (q, ds) ∧ ∀ e ∈ es, e.Reads p q ∧ ∀ w, SavedLoaded q w → e.Reads p w := by
  obtain ⟨q, ds, h, -⟩ := runEdits_ready es [] (by simpa using hr) (by simpa using hap)
  refine ⟨q, ds, h, fun e he => ?_⟩
  obtain ⟨l1, l2, rfl⟩ := List.append_of_mem he
  have hperm : (l1 ++ e :: l2).Perm ((l1 ++ l2) ++ [e]) := by
    refine List.perm_middle.trans ?_
    exact (List.perm_append_singleton e (l1 ++ l2)).symm
  obtain ⟨ds', h', -⟩ := C88_any_order _ _ hperm (fun x hx => (hr x hx).inside) hap p q ds h
  have hr' : ∀ x ∈ (l1 ++ l2) ++ [e], x.Ready p := fun x hx => hr x (hperm.mem_iff.mpr hx)
  obtain ⟨q1, d1, h1, h2⟩ := runEdits_ready (l1 ++ l2) [e] hr'
    ((hperm.pairwise_iff fun hab => DirEdit.Apart.symm hab).mp hap)
  obtain ⟨h3, h4⟩ := h2 e (List.mem_singleton.mpr rfl)
  obtain ⟨q2, ds1, ds2, h5, h6, -⟩ := runEdits_append h'
  rw [h1] at h5
  obtain ⟨rfl, -⟩ := Prod.mk.inj (Except.ok.inj h5)
  obtain ⟨q3, d3, ds3, h7, h8, -⟩ := runEdits_cons h6
  obtain ⟨q4, d4, h9, -, h10, h11⟩ := h3.run
  rw [h9] at h7
  obtain ⟨rfl, -⟩ := Prod.mk.inj (Except.ok.inj h7)
  have e5 : q4 = q := (Prod.mk.inj (Except.ok.inj h8)).1
  subst e5
  exact ⟨h10.alike h4, fun w hw => (h11 w hw).alike h4⟩

/-! ### Cases the theorems apply to -/

/-- A section with 256 zero bytes. -/
def sixSec (k : Nat) : Sec := { tinySec 256 (0x2000 + 256 * k) 256 0 with data := zeros 256 }

/-- A PE32 image with six of them. -/
def sixImage : Image :=
  { kind := .pe32, dos := [0x4d, 0x5a] ++ zeros 58, lfanew := 64, stub := [1, 2, 3],
    nt := { tinyNt 6 0x2600 0 with numRva := 16, dirs := zeroDirs },
    secs := [sixSec 0, sixSec 1, sixSec 2, sixSec 3, sixSec 4, sixSec 5] }

set_option maxRecDepth 8192 in
theorem six_saveable : sixImage.Saveable false true false := saveable_of_check (by decide +kernel)

theorem six_host {i : Nat} (hi : i < 6) : Host sixImage i (sixSec i) := by
  match i, hi with
  | 0, _ => exact ⟨six_saveable.table, rfl, by decide, by decide, by decide +kernel, by decide⟩
  | 1, _ => exact ⟨six_saveable.table, rfl, by decide, by decide, by decide +kernel, by decide⟩
  | 2, _ => exact ⟨six_saveable.table, rfl, by decide, by decide, by decide +kernel, by decide⟩
  | 3, _ => exact ⟨six_saveable.table, rfl, by decide, by decide, by decide +kernel, by decide⟩
  | 4, _ => exact ⟨six_saveable.table, rfl, by decide, by decide, by decide +kernel, by decide⟩
  | 5, _ => exact ⟨six_saveable.table, rfl, by decide, by decide, by decide +kernel, by decide⟩

/-- One call of each kind. -/
def sixEdits : List DirEdit :=
  [.exports 3 demoExportInfo demoExports 18 true true, .imports 5 workImports {} 185 true true false,
   .relocs 0 [⟨0x1000, [⟨4, 3⟩, ⟨8, 3⟩, ⟨12, 3⟩]⟩, ⟨0x2000, [⟨0, 10⟩, ⟨8, 10⟩]⟩] 18 true false,
   .config 2 demoConfig 18 true true true false, .resources 1 demoRes 6 true false, .bound 4 demoBound 18 true false]

theorem sixEdits_ready : ∀ e ∈ sixEdits, e.Ready sixImage := by
  unfold sixEdits
  simp only [List.mem_cons, List.not_mem_nil, or_false]
  rintro e (rfl | rfl | rfl | rfl | rfl | rfl)
  · exact .exports 3 18 _ _ _ true 5 12 (six_host (by decide)) ⟨rfl, by decide⟩ (by decide) demoExportInfo_ok demoExports_ok
      demoExports_range (by decide) (by decide) (Or.inl (by decide)) (by decide)
  · refine .imports 5 185 _ _ _ true false (six_host (by decide)) ⟨rfl, by decide⟩ (by decide) (fun _ => by decide) rfl rfl ?_ (by decide)
      232 256 75 ⟨by decide, by decide, by decide⟩ (by decide) (by decide +kernel)
    intro l hl
    have h := workImports_ok l hl
    refine ⟨?_, h.name, h.stamp, h.fresh, fun hk => absurd hk ?_⟩ <;>
    · unfold workImports at hl
      rw [List.mem_singleton] at hl
      subst hl
      decide
  · exact .relocs 0 18 _ _ false (six_host (by decide)) ⟨rfl, by decide⟩ (by decide) (by simp) (by simp [RelocEntry.Ok]) (by decide)
      (by decide)
  · exact .config 2 18 _ _ false (six_host (by decide)) ⟨rfl, by decide⟩ (by decide) demoConfig_fits (by decide) (Or.inl rfl) _ rfl
      (by decide) (by decide) (by decide) (by decide)
  · exact .resources 1 6 _ _ false 146 192 (six_host (by decide)) ⟨rfl, by decide⟩ (by decide) demoRes_ok (by decide) (by decide)
      (by decide) (by decide) (by decide) (Or.inr (Or.inl demoRes_len)) (Or.inl demoRes_ne)
  · exact .bound 4 18 _ _ false (six_host (by decide)) ⟨rfl, by decide⟩ (by decide) demoBound_ok (by decide) (Or.inl rfl) (by decide)
      (by decide) (by decide) (by decide)

theorem sixEdits_apart : sixEdits.Pairwise DirEdit.Apart := by decide

/-- All six calls succeed; saved and loaded, the image has all six directories. -/
example : ∃ q ds w, runEdits sixImage sixEdits = .ok (q, ds) ∧ SavedLoaded q w ∧ ∀ e ∈ sixEdits, e.Reads sixImage w := by
  obtain ⟨q, ds, h1, h2⟩ := C88_all_read_partial sixImage sixEdits sixEdits_ready sixEdits_apart
  obtain ⟨⟨q', ds'⟩, h3, h4⟩ := exists_of_okAnd (x := runEdits sixImage sixEdits)
    (f := fun r => saveableB r.1 && okAnd (r.1.rebuildPe false true false) fun _ => true) (by decide +kernel)
  rw [h1] at h3
  obtain ⟨rfl, rfl⟩ := Prod.mk.inj (Except.ok.inj h3)
  rw [Bool.and_eq_true] at h4
  obtain ⟨⟨q2, out⟩, h5, -⟩ := exists_of_okAnd h4.2
  have hs := saveable_of_check h4.1
  obtain ⟨w, h6, -⟩ := C19_save_load q q2 false true false true true out zeroDirs rfl (by decide) hs h5
  have hw : SavedLoaded q w := ⟨false, true, false, true, true, zeroDirs, q2, out, rfl, by decide, hs, h5, h6⟩
  exact ⟨q, ds, w, h1, hw, fun e he => (h2 e he).2 w hw⟩

/-- The reverse order gives the same image. -/
example : ∃ q ds ds', runEdits sixImage sixEdits = .ok (q, ds) ∧ runEdits sixImage sixEdits.reverse = .ok (q, ds') := by
  obtain ⟨q, ds, h1, -⟩ := C88_all_read_partial sixImage sixEdits sixEdits_ready sixEdits_apart
  obtain ⟨ds', h2, -⟩ := C88_any_order sixEdits sixEdits.reverse (List.reverse_perm _).symm
    (fun e he => (sixEdits_ready e he).inside) sixEdits_apart sixImage q ds h1
  exact ⟨q, ds, ds', h1, h2⟩

/-- Raw data in section 1. -/
def elsewhereTls : TlsInfo :=
  { start := 0x2114, stop := 0x2118, index := 0x2040, callbacksRva := 0, zeroFill := 0, chars := 0, raw := [1, 2, 3, 4],
    callbacks := [] }

/-- Without `Inside` it is false: `rebuild_tls` in section 0 writes its raw data into section 1, where `rebuild_bound_imports`
    puts the directory. Both orders succeed, with different images; the bound imports can be read in one of them only. -/
theorem C88_tls_elsewhere : ∃ (a b : DirEdit) (q q' : Image) (ds ds' : List (Nat × Nat)), a.Apart b ∧ b.Inside ∧
    runEdits sixImage [a, b] = .ok (q, ds) ∧ runEdits sixImage [b, a] = .ok (q', ds') ∧ q ≠ q' ∧
    q.getBound = .ok demoBound ∧ q'.getBound ≠ .ok demoBound := by
  let a : DirEdit := .tls 0 elsewhereTls 0 true true .raw true false
  let b : DirEdit := .bound 1 demoBound 18 true false
  obtain ⟨⟨q, ds⟩, h1, h2⟩ := exists_of_okAnd (x := runEdits sixImage [a, b])
    (f := fun r => decide (r.1.getBound = .ok demoBound) && okAnd (runEdits sixImage [b, a]) fun r' => decide (r.1 ≠ r'.1) &&
      decide (r'.1.getBound ≠ .ok demoBound)) (by decide +kernel)
  rw [Bool.and_eq_true, decide_eq_true_eq] at h2
  obtain ⟨⟨q', ds'⟩, h3, h4⟩ := exists_of_okAnd h2.2
  rw [Bool.and_eq_true, decide_eq_true_eq, decide_eq_true_eq] at h4
  exact ⟨a, b, q, q', ds, ds', by decide, trivial, h1, h3, h4.1, h2.1, h4.2⟩

end PE
