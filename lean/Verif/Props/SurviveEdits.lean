/-
C69: rebuilt directories survive saving and loading.
-/
import Verif.Props.BoundImport
import Verif.Props.Exports
import Verif.Props.Imports
import Verif.Props.ImportsAll
import Verif.Props.LoadConfig
import Verif.Props.Reloc
import Verif.Props.Resources
import Verif.Props.Survive
import Verif.Props.Tls
namespace PE

/-- `r` is what is loaded (in any way) from a file that `rebuild_pe` has written (with any settings) for the image `q`. -/
def SavedLoaded (q r : Image) : Prop :=
  ∃ (strip chg sb strict dbg : Bool) (pre : List (Nat × Nat)) (q2 : Image) (out : Bytes), pre.length = 16 ∧
    (∀ d ∈ pre, d.1 < 2 ^ 32) ∧ q.Saveable strip chg sb ∧ q.rebuildPe strip chg sb = .ok (q2, out) ∧
    load q.kind strict false dbg pre out = .ok r

theorem SavedLoaded.reads {q r : Image} (h : SavedLoaded q r) (hn : q.nt.numRva ≠ 0) : ReadsAs q.noHdr r ∧
    (q.HasBound → q.nt.sizeHeaders < q.boundDir.1 → ∀ v, q.noHdr.getBound = .ok v → r.getBound = .ok v) := by
  obtain ⟨strip, chg, sb, strict, dbg, pre, q2, out, h1, h2, h3, h4, h5⟩ := h
  obtain ⟨r', h6, h7, h8⟩ := C68_saved_directories q q2 strip chg sb strict dbg out pre h1 h2 h3 hn h4
  rw [h5] at h6
  rw [Except.ok.inj h6]
  refine ⟨h7, fun hb hh => h8 ?_⟩
  unfold Image.savesBound
  rw [decide_eq_true ⟨hb, hh⟩]
  cases sb <;> rfl

theorem numRva_pos {h : NtHdr} {id v : Nat} (he : h.getDirRva id = .ok v) : h.numRva ≠ 0 := by
  unfold NtHdr.getDirRva at he
  split at he
  · simp [throwE] at he
  · omega

theorem Host.noHdr {p : Image} {i : Nat} {s : Sec} (h : Host p i s) : Host p.noHdr i s :=
  ⟨⟨h.valid.sa, h.valid.fa, h.valid.le, h.valid.fits, h.valid.aligned, h.valid.nonempty, h.valid.contig, h.valid.num,
    h.valid.count, h.valid.pages⟩, h.sec, Nat.zero_le _, h.pos, h.data, h.raw⟩

theorem AllHosts.noHdr {p : Image} (h : AllHosts p) : AllHosts p.noHdr :=
  ⟨⟨h.valid.sa, h.valid.fa, h.valid.le, h.valid.fits, h.valid.aligned, h.valid.nonempty, h.valid.contig, h.valid.num,
    h.valid.count, h.valid.pages⟩, fun j s hs => (h.host j s hs).noHdr, h.small⟩

theorem noHdr_of {q0 : Image} (h : q0.hdrData = []) (b : Bytes) : (q0.withHdr b).noHdr = q0 := by
  unfold Image.noHdr Image.withHdr
  rw [← h]

/-- Exports written by `rebuild_exports` are found in the file that is saved then. -/
theorem C69_exports_partial (p q r : Image) (i off : Nat) (s : Sec) (info : ExportInfo) (l : List ExportFn) (strip : Bool)
    (lo hi start size : Nat) (hh : Host p i s) (hdirs : p.nt.DirsOk) (hnum : dirExport < p.nt.numRva)
    (hinfo : info.Writable) (hl : ExportsOk l) (hrange : OrdinalRange l lo hi)
    (hoff : off < 2 ^ 32 - 4) (hstart : start = ceilTo off 4) (hsize : size = exportSize info l lo hi)
    (hroom : HostRoom p i s (start + size))
    (hend : namesOf l ≠ [] ∨ start + size < s.data.length ∨ ¬ p.nt.secAlign ∣ start + size)
    (hout : ∀ f ∈ l, f.name ≠ [] → f.fwd = [] → ¬ (s.va + start + 4 ≤ f.rva ∧ f.rva < s.va + start + size))
    (dir : Nat × Nat) (hq : p.rebuildExports info l i off true strip = .ok (q, dir)) (hr : SavedLoaded q r) :
    ∃ (inf : ExportInfo) (l' : List ExportFn), r.getExports = .ok (some inf, l') ∧
        l'.Pairwise (fun a b => a.ordinal < b.ordinal) ∧ (l'.map ExportFn.shown).Perm (l.map ExportFn.shown) ∧
        (∀ f ∈ l', f.nameOrdinal = if f.name = [] then 0 else f.ordinal - lo) ∧
        inf.chars = info.chars ∧ inf.stamp = info.stamp ∧ inf.major = info.major ∧ inf.minor = info.minor ∧
        inf.name = info.name ∧ inf.base = lo ∧ inf.numFuncs = hi - lo + 1 ∧ inf.numNames = (namesOf l).length := by
  obtain ⟨q0, h1, h2, inf, l', h3, h4⟩ := C27_round_trip_partial p.noHdr i off s info l strip lo hi start size hh.noHdr hdirs hnum
    hinfo hl hrange hoff hstart hsize hroom hend hout
  have e : p.rebuildExports info l i off true strip = _ := rebuildExports_hdr p.noHdr p.hdrData info l i off true strip
  rw [h1, hq] at e
  have e1 : q = q0.withHdr p.hdrData := (Prod.mk.inj (Except.ok.inj e)).1
  have e2 : q.noHdr = q0 := by rw [e1]; exact noHdr_of h2.hdr _
  have hn : q.nt.numRva ≠ 0 := by rw [e1]; exact numRva_pos h2.rva
  refine ⟨inf, l', (hr.reads hn).1.exports _ ?_, h4⟩
  rw [e2]; exact h3

/-- Imports written by `rebuild_imports` are found in the file that is saved then. -/
theorem C69_imports_partial (p q r : Image) (i off : Nat) (s : Sec) (ls : List ImportLib) (c : ImportCfg) (zeroIat strip : Bool)
    (hh : Host p i s) (hdirs : p.nt.DirsOk) (hnum : dirImport < p.nt.numRva) (hnum2 : zeroIat = true → dirIat < p.nt.numRva)
    (hfill : c.fill = false) (hrew : c.rewrite = false) (hl : ∀ l ∈ ls, l.Ok p.noHdr i c.save c.buildOrig)
    (hlow : p.kind.ptr = 4 → s.va + off + importNames ls ≤ 2 ^ 31)
    (iat fin need : Nat) (hsz : ImportSizes p.kind.ptr off c ls iat fin need) (hroom : HostRoom p i s (off + need))
    (hend : s.data.length ≤ fin) (dir : Nat × Nat)
    (hq : p.rebuildImports ls i c off true zeroIat strip = .ok (q, dir)) (hr : SavedLoaded q r) :
    ∃ ls' : List ImportLib, r.getImports = .ok ls' ∧ ls'.length = ls.length ∧
      ∀ (k : Nat) (l l' : ImportLib), ls[k]? = some l → ls'[k]? = some l' → l.Same l' c.save c.buildOrig := by
  obtain ⟨qa, q0, ls', h1, h2, h2', h3, h4⟩ := C29_round_trip_partial p.noHdr i off s ls c zeroIat strip hh.noHdr hdirs hnum hnum2
    hfill hrew hl hlow iat fin need hsz hroom hend
  have e : p.rebuildImports ls i c off true zeroIat strip = _ := rebuildImports_hdr p.noHdr p.hdrData ls i hrew off true zeroIat strip
  rw [h1, hq] at e
  have e1 : q = q0.withHdr p.hdrData := (Prod.mk.inj (Except.ok.inj e)).1
  have hz : q0.hdrData = [] ∧ q0.nt.numRva ≠ 0 := by
    rw [h2']
    split
    · exact ⟨h2.hdr, (numRva_pos h2.rva : qa.nt.numRva ≠ 0)⟩
    · exact ⟨h2.hdr, numRva_pos h2.rva⟩
  have e2 : q.noHdr = q0 := by rw [e1]; exact noHdr_of hz.1 _
  have hn : q.nt.numRva ≠ 0 := by rw [e1]; exact hz.2
  refine ⟨ls', (hr.reads hn).1.imports _ ?_, h4⟩
  rw [e2]; exact h3

/-- The same for all settings of the import rebuilder. -/
theorem C69_import_settings_partial (p q r : Image) (i off : Nat) (s : Sec) (ls : List ImportLib) (c : ImportCfg) (zeroIat strip : Bool)
    (hh : Host p i s) (hdirs : p.nt.DirsOk) (hnum : dirImport < p.nt.numRva) (hnum2 : zeroIat = true → dirIat < p.nt.numRva)
    (hl : ∀ l ∈ ls, l.AllOk p.noHdr i c) (hrm : ∀ l ∈ ls, ∀ t ∈ l.tables p.kind.ptr c, ∃ j, TabRoom p i j t.1 t.2)
    (hap : (importTabs p.kind.ptr c ls).Pairwise TabsApart)
    (hlow : p.kind.ptr = 4 → s.va + off + importNames ls ≤ 2 ^ 31)
    (iat fin need : Nat) (hsz : ImportAllSizes p.kind.ptr off c ls iat fin need) (hroom : HostRoom p i s (off + need))
    (hend : s.data.length ≤ fin) (dir : Nat × Nat)
    (hq : p.rebuildImports ls i c off true zeroIat strip = .ok (q, dir)) (hr : SavedLoaded q r) :
    ∃ ls' : List ImportLib, r.getImports = .ok ls' ∧ ls'.length = ls.length ∧
      ∀ (k : Nat) (l l' : ImportLib), ls[k]? = some l → ls'[k]? = some l' → l.AllSame l' c := by
  obtain ⟨p', qa, q', ls', h1, h2, h3, h4, h5, h6⟩ := settings_core p i off s ls c zeroIat strip hh hdirs hnum hnum2 []
    (Nat.zero_le _) hl hrm hap hlow iat fin need hsz hroom hend
  rw [h1] at hq
  have e1 : q' = q := (Prod.mk.inj (Except.ok.inj hq)).1
  rw [← e1] at hr
  have hn : q'.nt.numRva ≠ 0 := by
    rw [h4]
    split
    · exact (numRva_pos h3.rva : qa.nt.numRva ≠ 0)
    · exact numRva_pos h3.rva
  exact ⟨ls', (hr.reads hn).1.imports _ h5, h6⟩

/-- Relocations written by `rebuild_relocations` are found in the file that is saved then. -/
theorem C69_relocations_partial (p q r : Image) (i off : Nat) (s : Sec) (tables : List RelocTable) (strip : Bool)
    (hh : Host p i s) (hdirs : p.nt.DirsOk) (hnum : dirBaseReloc < p.nt.numRva) (hne : tables ≠ [])
    (hok : ∀ t ∈ tables, t.rva < 2 ^ 32 ∧ ∀ e ∈ t.relocs, e.Ok) (hoff : off < 2 ^ 32 - 4)
    (hroom : HostRoom p i s (ceilTo off 4 + (ceilTo off 4 - off) + relocBytes tables)) (dir : Nat × Nat)
    (hq : p.rebuildRelocations tables i off true strip = .ok (q, dir)) (hr : SavedLoaded q r) :
    r.getRelocations true = .ok (tables.map (fun t => ⟨t.rva, t.stored⟩)) ∧
      r.getRelocations false = .ok (tables.map RelocTable.active) := by
  obtain ⟨q0, dir0, h1, -, h2, -, h3, h4, -, h5, -⟩ := C25_round_trip_partial p.noHdr i off s tables strip hh.noHdr hdirs hnum hne hok
    hoff hroom
  have e : p.rebuildRelocations tables i off true strip = _ := rebuildRelocations_hdr p.noHdr p.hdrData tables i off true strip
  rw [h1, hq] at e
  have e1 : q = q0.withHdr p.hdrData := (Prod.mk.inj (Except.ok.inj e)).1
  have e2 : q.noHdr = q0 := by rw [e1]; exact noHdr_of h5 _
  have hn : q.nt.numRva ≠ 0 := by rw [e1]; exact numRva_pos h2
  have hx := (hr.reads hn).1.relocations
  rw [e2] at hx
  exact ⟨hx _ _ h3, hx _ _ h4⟩

/-- The load configuration written by `rebuild_image_config` is found in the file that is saved then. -/
theorem C69_config_partial (p q r : Image) (i off : Nat) (s : Sec) (c : ConfigInfo) (strip : Bool)
    (hh : Host p i s) (hdirs : p.nt.DirsOk) (hnum : dirLoadConfig < p.nt.numRva) (hfit : c.Fits p.kind.ptr)
    (hoff : off < 2 ^ 32 - 8) (hstrip : strip = false ∨ i + 1 = p.secs.length)
    (start N : Nat) (hstart : start = ceilTo off p.kind.ptr)
    (hN : N = start + p.kind.sizeofConfig + 4 * c.handlers.length + p.kind.ptr * (c.locks.length + 1))
    (hroom : HostRoom p i s N)
    (hbase : p.nt.imageBase + s.va + N < 256 ^ p.kind.ptr) (hb64 : p.nt.imageBase + 2 ^ 32 ≤ 2 ^ 64)
    (hlocks : ∀ r ∈ c.locks, r < 2 ^ 32 ∧ p.nt.imageBase + r < 256 ^ p.kind.ptr ∧ 0 < p.nt.imageBase + r) (dir : Nat × Nat)
    (hq : p.rebuildConfig c i off true true true strip = .ok (q, dir)) (hr : SavedLoaded q r) :
    ∃ hs : List Nat, hs.Perm c.handlers ∧ hs.Pairwise (· ≤ ·) ∧
        r.getConfig = .ok { c with
          handlers := hs
          seCount := c.handlers.length
          seTable := if c.handlers = [] then 0 else p.nt.imageBase + s.va + start + p.kind.sizeofConfig
          lockTable := if c.locks = [] then 0 else
            p.nt.imageBase + s.va + start + p.kind.sizeofConfig + 4 * c.handlers.length } := by
  obtain ⟨q0, h1, h2, hs, h3, h4, h5⟩ := C45_round_trip_partial p.noHdr i off s c strip hh.noHdr hdirs hnum hfit hoff hstrip start N
    hstart hN hroom hbase hb64 hlocks
  have e : p.rebuildConfig c i off true true true strip = _ := rebuildConfig_hdr p.noHdr p.hdrData c i off true true true strip
  rw [h1, hq] at e
  have e1 : q = q0.withHdr p.hdrData := (Prod.mk.inj (Except.ok.inj e)).1
  have e2 : q.noHdr = q0 := by rw [e1]; exact noHdr_of h2.hdr _
  have hn : q.nt.numRva ≠ 0 := by rw [e1]; exact numRva_pos h2.rva
  refine ⟨hs, h3, h4, (hr.reads hn).1.config _ ?_⟩
  rw [e2]; exact h5

/-- Resources written by `rebuild_resources` are found in the file that is saved then. -/
theorem C69_resources_partial (p q w : Image) (i off : Nat) (s : Sec) (r : ResDir) (strip : Bool) (start pos fin : Nat)
    (hh : Host p i s) (hdirs : p.nt.DirsOk) (hnum : dirResource < p.nt.numRva) (hr : r.Ok)
    (hoff : off < 2 ^ 32 - 4) (hstart : start = ceilTo off 4)
    (hpos : pos = start + ((start - off) + (16 + 8 * r.es.length + tablesOf r.es) + namesIn r.es))
    (hfin : fin = dataEndOf r.es pos) (hroom : HostRoom p i s fin) (hsmall : fin + 3 < start + 2 ^ 31)
    (hfit : r.Ordered ∨ AllData (fun d => 4 ∣ d.length) r.es ∨ fin + 3 ≤ s.data.length)
    (hend : AllData (fun d => d ≠ []) r.es ∨ ceilTo fin 4 < s.data.length ∨ (4 ∣ p.nt.secAlign ∧ ¬ p.nt.secAlign ∣ ceilTo fin 4))
    (dir : Nat × Nat) (hq : p.rebuildResources r i off true strip = .ok (q, dir)) (hw : SavedLoaded q w) :
    ∃ t, w.getResources = .ok t ∧ r.Same t := by
  obtain ⟨q0, n, t, h1, h2, -, h3, h4⟩ := C31_round_trip_partial p.noHdr i off s r strip start pos fin hh.noHdr hdirs hnum hr hoff
    hstart hpos hfin hroom hsmall hfit hend
  have e : p.rebuildResources r i off true strip = _ := rebuildResources_hdr p.noHdr p.hdrData r i off true strip
  rw [h1, hq] at e
  have e1 : q = q0.withHdr p.hdrData := (Prod.mk.inj (Except.ok.inj e)).1
  have e2 : q.noHdr = q0 := by rw [e1]; exact noHdr_of h2.hdr _
  have hn : q.nt.numRva ≠ 0 := by rw [e1]; exact numRva_pos h2.rva
  refine ⟨t, (hw.reads hn).1.resources _ ?_, h4⟩
  rw [e2]; exact h3

/-- The TLS directory written by `rebuild_tls` is found in the file that is saved then. -/
theorem C69_tls_partial (p q r : Image) (i off : Nat) (s : Sec) (t : TlsInfo) (e : ExpandType) (strip : Bool)
    (hall : AllHosts p) (hsec : p.secs[i]? = some s) (hdirs : p.nt.DirsOk) (hnum : dirTls < p.nt.numRva)
    (hoff : off < 2 ^ 32 - 8) (pos : Nat) (hpos : pos = ceilTo off p.kind.ptr)
    (hroom : HostRoom p i s (pos + p.kind.sizeofTls)) (hpage : pos + p.kind.sizeofTls ≤ s.span p.nt.secAlign)
    (hs : t.Sound) (hmap : t.Mapped p)
    (hdata : t.start ≠ 0 → RoomAt p (decide (e = .raw)) t.start t.raw.length)
    (htable : t.callbacksRva ≠ 0 → RoomAt p true t.callbacksRva (p.kind.ptr * (t.callbacks.length + 1)))
    (hd1 : Apart (s.va + pos) p.kind.sizeofTls t.start t.raw.length)
    (hd2 : Apart (s.va + pos) p.kind.sizeofTls t.callbacksRva (t.tableLen p.kind))
    (hd3 : Apart t.start t.raw.length t.callbacksRva (t.tableLen p.kind)) (dir : Nat × Nat)
    (hq : p.rebuildTls t i off true true e true strip = .ok (q, dir)) (hr : SavedLoaded q r) : r.getTls = .ok t := by
  obtain ⟨q0, h1, h3, -, -, h4, -, h5, -⟩ := C43_round_trip_partial p.noHdr i off s t e strip hall.noHdr hsec hdirs hnum hoff pos hpos
    hroom hpage hs ⟨hmap.base, hmap.stop, hmap.index, hmap.table, hmap.callbacks⟩ hdata htable hd1 hd2 hd3
  have hc : Clear p.hdrData p.noHdr := ⟨rfl, fun u hu => by
    obtain ⟨j, hj, ej⟩ := List.getElem_of_mem hu
    exact (hall.host j u (by rw [← ej]; exact List.getElem?_eq_getElem hj)).hdr⟩
  have e : p.rebuildTls t i off true true e true strip = _ := rebuildTls_hdr hc h1
  rw [hq] at e
  have e1 : q = q0.withHdr p.hdrData := (Prod.mk.inj (Except.ok.inj e)).1
  have e2 : q.noHdr = q0 := by rw [e1]; exact noHdr_of h4 _
  have hn : q.nt.numRva ≠ 0 := by
    rw [e1]; show q0.nt.numRva ≠ 0; rw [h5]; show p.nt.numRva ≠ 0; omega
  refine (hr.reads hn).1.tls _ ?_
  rw [e2]; exact h3

/-- Bound imports written into a section by `rebuild_bound_imports` are found in the file that is saved then. -/
theorem C69_bound_partial (p q r : Image) (i off : Nat) (s : Sec) (l : List BoundMod) (strip : Bool)
    (hh : Host p i s) (hdirs : p.nt.DirsOk) (hnum : dirBoundImport < p.nt.numRva) (hl : ∀ m ∈ l, m.Ok)
    (hoff : off < 2 ^ 32 - 4) (hstrip : strip = false ∨ i + 1 = p.secs.length) (hsize : boundSize l ≤ 65536)
    (start : Nat) (hstart : start = ceilTo off 4) (hroom : HostRoom p i s (start + boundSize l))
    (hterm : ∀ j < 2, s.data.getD (start + 8 * boundCount l + 4 + j) 0 = 0) (hhead : p.nt.sizeHeaders < s.va + start)
    (dir : Nat × Nat) (hq : p.rebuildBound l i off true strip = .ok (q, dir)) (hr : SavedLoaded q r) :
    r.getBound = .ok l := by
  obtain ⟨q0, h1, h2, h3⟩ := C44_round_trip_partial p.noHdr i off s l strip hh.noHdr hdirs hnum hl hoff hstrip hsize start hstart
    hroom hterm
  have e : p.rebuildBound l i off true strip = _ := rebuildBound_hdr p.noHdr p.hdrData l i off true strip
  rw [h1, hq] at e
  have e1 : q = q0.withHdr p.hdrData := (Prod.mk.inj (Except.ok.inj e)).1
  have e2 : q.noHdr = q0 := by rw [e1]; exact noHdr_of h2.hdr _
  have hnt : q.nt = { p.nt with dirs := p.nt.dirs.set dirBoundImport (s.va + start, boundSize l) } := by
    rw [e1]; exact h2.nt
  have hn : q.nt.numRva ≠ 0 := by rw [e1]; exact numRva_pos h2.rva
  have hbd : q.boundDir = (s.va + start, boundSize l) := by
    unfold Image.boundDir
    rw [hnt]
    show ((p.nt.dirs.set 11 (s.va + start, boundSize l))[11]?).getD (0, 0) = _
    rw [List.getElem?_set_self (by have := hdirs.slots; omega)]
    rfl
  refine (hr.reads hn).2 ?_ ?_ _ ?_
  · refine ⟨by rw [hnt]; exact hnum, ?_⟩
    rw [hbd]
    have := hh.pos
    show s.va + start ≠ 0
    omega
  · rw [hbd, hnt]; exact hhead
  · rw [e2]; exact h3

/-! ### Cases the theorems apply to -/

/-- A PE32 image with sixteen directories and two sections with 64 and 256 bytes of raw data. -/
def workImage (dirs : List (Nat × Nat)) (c dc : Nat) (d : Bytes) : Image :=
  { kind := .pe32, dos := [0x4d, 0x5a] ++ zeros 58, lfanew := 64, stub := [1, 2, 3],
    nt := { tinyNt 2 2304 0 with numRva := 16, dirs := dirs, chars := c, dllChars := dc },
    secs := [{ tinySec 1024 1024 64 0 with data := (zeros 64).map (· + 7) }, { tinySec 256 2048 256 0 with data := d }] }

/-- Without directories and data. -/
def workStart : Image := workImage zeroDirs 0 0 (zeros 256)

/-- The image is one of those above. -/
def isWork (q : Image) : Bool :=
  decide (∃ d ∈ q.secs.map Sec.data, q = workImage q.nt.dirs q.nt.chars q.nt.dllChars d ∧ d.length = 256) &&
    decide (q.nt.dirs.length = 16) && decide (∀ x ∈ q.nt.dirs, x.1 < 2 ^ 32 ∧ x.2 < 2 ^ 32) &&
    decide (q.nt.chars < 65536 ∧ q.nt.dllChars < 65536) && decide (q.boundDir.2 < 256)

theorem isWork_saveable {q : Image} (h : isWork q = true) : q.Saveable false true false := by
  unfold isWork at h
  simp only [Bool.and_eq_true, decide_eq_true_eq] at h
  obtain ⟨⟨⟨⟨⟨d, -, h1, h2⟩, h3⟩, h4⟩, h5, h6⟩, h7⟩ := h
  have hmem : ∀ s ∈ q.secs, s = { tinySec 1024 1024 64 0 with data := (zeros 64).map (· + 7) } ∨
      s = { tinySec 256 2048 256 0 with data := d } := by
    rw [h1]
    intro s hs
    simpa only [workImage, List.mem_cons, List.not_mem_nil, or_false] using hs
  have hcount : q.secs.length = 2 := by rw [h1]; rfl
  have hal : q.nt.secAlign = 16 ∧ q.nt.fileAlign = 16 := by rw [h1]; exact ⟨rfl, rfl⟩
  have hnum : q.nt.numRva = 16 := by rw [h1]; rfl
  have hp16 : Pow2 16 := ⟨4, by decide, rfl⟩
  refine ⟨⟨⟨h3, by omega⟩, ?_, by omega, by omega⟩, ⟨?_, ?_, ?_⟩, ?_, ?_, ?_, ?_, ⟨?_, ?_⟩, h4, ?_, ?_, ?_, ?_, ?_, .inl rfl, ?_, ?_⟩
  · rw [h1]; show ([1, 2, 3] : Bytes).length < _; decide
  · rw [h1]; rfl
  · intro s hs; rcases hmem s hs with rfl | rfl <;> rfl
  · intro s hs; rcases hmem s hs with rfl | rfl
    · decide
    · show 256 < _; omega
  · rw [h1]; show rd 2 ([0x4d, 0x5a] ++ zeros 58) 0 = _; decide
  · rw [h1]; show ([1, 2, 3] : Bytes).length ≤ _; decide
  · rw [h1]; rfl
  · rw [h1]; rfl
  · rw [h1]
    unfold ntFields
    have e : 256 ^ Kind.pe32.ptr = 4294967296 := rfl
    simp [workImage, tinyNt, createNt, e]
    omega
  · rw [h1]; intro h; cases h
  · rw [hal.1, hal.2]; exact .inl rfl
  · refine ⟨by rw [hal.1]; exact hp16, by rw [hal.2]; exact hp16, by omega, ?_, ?_, ?_, ?_, by rw [h1]; rfl, by omega, ?_⟩
    · intro s hs
      rw [hal.1]
      rcases hmem s hs with rfl | rfl
      · constructor <;> decide
      · exact ⟨by show 256 < _; decide, by show 256 < _; decide, by show 0 < _; decide, by show 2048 + ceilTo 256 16 < _; decide⟩
    · intro s hs
      rw [hal.1]
      rcases hmem s hs with rfl | rfl
      · decide
      · show 16 ∣ 2048; decide
    · intro s hs
      rcases hmem s hs with rfl | rfl
      · decide
      · rintro ⟨h, -⟩; cases h
    · rw [h1]
      exact ⟨by show 2048 = 1024 + ceilTo 1024 16; decide, trivial⟩
    · intro s hs
      rw [hal.1]
      rcases hmem s hs with rfl | rfl
      · decide
      · exact ⟨by show d.length < _; omega, fun h => by cases h⟩
  · intro h; rw [h] at hcount; cases hcount
  · intro s hs
    rcases hmem s hs with rfl | rfl
    · constructor <;> decide
    · exact ⟨rfl, by show 256 < _; decide, by show 2048 < _; decide, by show 256 < _; decide, by show 0 < _; decide,
        by show 0 < _; decide, by show 0 < _; decide, by show 0 < _; decide, by show 0 < _; decide, by show 0 < _; decide⟩
  · intro s hs
    rw [hal.1, hal.2]
    rcases hmem s hs with rfl | rfl
    · decide
    · exact ⟨h2, by show 256 ≠ 0; decide, by show 256 ≤ _; decide, by show 256 ≤ _; decide, Nat.le_refl _⟩
  · intro i s hi h0
    rcases hmem s (List.mem_of_getElem? hi) with rfl | rfl <;> cases h0
  · rw [h1]
    have e : (workImage q.nt.dirs q.nt.chars q.nt.dllChars d).boundSize
        ((workImage q.nt.dirs q.nt.chars q.nt.dllChars d).savesBound false) = 0 := if_neg fun h => by cases h.1
    unfold Image.FileFits Image.dataStart
    rw [e]
    unfold rawOffset Image.tableEnd Image.ntStart workImage
    simp [tinyNt, createNt, tinySec, ceilTo, Kind.sizeofNt]

set_option maxRecDepth 4096 in
theorem work_saveable : workStart.Saveable false true false := isWork_saveable (by decide +kernel)

theorem work_host : Host workStart 1 { tinySec 256 2048 256 0 with data := zeros 256 } :=
  ⟨work_saveable.table, rfl, by decide, by decide, by decide +kernel, by decide⟩

/-- Whatever can be written can be loaded. -/
theorem isWork_loaded {q : Image} (h : (isWork q && okAnd (q.rebuildPe false true false) fun _ => true) = true) :
    ∃ r, SavedLoaded q r := by
  rw [Bool.and_eq_true] at h
  obtain ⟨⟨q2, out⟩, h1, -⟩ := exists_of_okAnd h.2
  obtain ⟨r, h2, -⟩ := C19_save_load q q2 false true false true true out zeroDirs rfl (by decide) (isWork_saveable h.1) h1
  exact ⟨r, false, true, false, true, true, zeroDirs, q2, out, rfl, by decide, isWork_saveable h.1, h1, h2⟩

/-- The images in which a rebuilder has left its data can be saved and loaded. -/
def canSave (x : Res (Image × (Nat × Nat))) : Bool :=
  okAnd x fun r => isWork r.1 && okAnd (r.1.rebuildPe false true false) fun _ => true

theorem canSave_loaded {x : Res (Image × (Nat × Nat))} (h : canSave x = true) :
    ∃ q dir r, x = .ok (q, dir) ∧ SavedLoaded q r := by
  obtain ⟨⟨q, dir⟩, h1, h2⟩ := exists_of_okAnd h
  obtain ⟨r, h3⟩ := isWork_loaded h2
  exact ⟨q, dir, r, h1, h3⟩

example : ∃ q dir r inf l', workStart.rebuildExports demoExportInfo demoExports 1 18 true false = .ok (q, dir) ∧ SavedLoaded q r ∧
    r.getExports = .ok (some inf, l') ∧ (l'.map ExportFn.shown).Perm (demoExports.map ExportFn.shown) := by
  obtain ⟨q, dir, r, h1, h2⟩ := canSave_loaded (x := workStart.rebuildExports demoExportInfo demoExports 1 18 true false)
    (by decide +kernel)
  obtain ⟨inf, l', h3, -, h4, -⟩ := C69_exports_partial workStart q r 1 18 _ demoExportInfo demoExports false 5 12 20 105
    work_host ⟨rfl, by decide⟩ (by decide) demoExportInfo_ok demoExports_ok demoExports_range (by decide) (by decide)
    (by decide) (by decide) (Or.inl (by decide)) (by decide) dir h1 h2
  exact ⟨q, dir, r, inf, l', h1, h2, h3, h4⟩

example : ∃ q dir r, workStart.rebuildRelocations [⟨0x1000, [⟨4, 3⟩, ⟨8, 3⟩, ⟨12, 3⟩]⟩, ⟨0x2000, [⟨0, 10⟩, ⟨8, 10⟩]⟩] 1 18 true false =
      .ok (q, dir) ∧ SavedLoaded q r ∧
    r.getRelocations false = .ok [⟨0x1000, [⟨4, 3⟩, ⟨8, 3⟩, ⟨12, 3⟩]⟩, ⟨0x2000, [⟨0, 10⟩, ⟨8, 10⟩]⟩] := by
  obtain ⟨q, dir, r, h1, h2⟩ := canSave_loaded (x := workStart.rebuildRelocations
    [⟨0x1000, [⟨4, 3⟩, ⟨8, 3⟩, ⟨12, 3⟩]⟩, ⟨0x2000, [⟨0, 10⟩, ⟨8, 10⟩]⟩] 1 18 true false) (by decide +kernel)
  obtain ⟨-, h3⟩ := C69_relocations_partial workStart q r 1 18 _
    [⟨0x1000, [⟨4, 3⟩, ⟨8, 3⟩, ⟨12, 3⟩]⟩, ⟨0x2000, [⟨0, 10⟩, ⟨8, 10⟩]⟩] false work_host
    ⟨rfl, by decide⟩ (by decide) (by simp) (by simp [RelocEntry.Ok]) (by decide) (by decide) dir h1 h2
  exact ⟨q, dir, r, h1, h2, h3⟩

example : ∃ q dir r hs, workStart.rebuildConfig demoConfig 1 18 true true true false = .ok (q, dir) ∧ SavedLoaded q r ∧
    hs.Perm [0x1008, 0x1000, 0x1004] ∧ r.getConfig = .ok { demoConfig with
      handlers := hs
      seCount := 3
      seTable := 0x400000 + 2140
      lockTable := 0x400000 + 2152 } := by
  obtain ⟨q, dir, r, h1, h2⟩ := canSave_loaded (x := workStart.rebuildConfig demoConfig 1 18 true true true false)
    (by decide +kernel)
  obtain ⟨hs, h3, -, h4⟩ := C69_config_partial workStart q r 1 18 _ demoConfig false work_host
    ⟨rfl, by decide⟩ (by decide) demoConfig_fits (by decide) (Or.inr rfl) 20 _ (by decide) rfl (by decide) (by decide)
    (by decide) (by decide) dir h1 h2
  exact ⟨q, dir, r, hs, h1, h2, h3, h4⟩

example : ∃ q dir r, workStart.rebuildBound demoBound 1 18 true false = .ok (q, dir) ∧ SavedLoaded q r ∧ r.getBound = .ok demoBound := by
  obtain ⟨q, dir, r, h1, h2⟩ := canSave_loaded (x := workStart.rebuildBound demoBound 1 18 true false) (by decide +kernel)
  exact ⟨q, dir, r, h1, h2, C69_bound_partial workStart q r 1 18 _ demoBound false work_host
    ⟨rfl, by decide⟩ (by decide) demoBound_ok (by decide) (Or.inr rfl) (by decide) 20 (by decide) (by decide)
    (by decide) (by decide) dir h1 h2⟩

example : ∃ q dir w t, workStart.rebuildResources demoRes 1 6 true false = .ok (q, dir) ∧ SavedLoaded q w ∧
    w.getResources = .ok t ∧ demoRes.Same t := by
  obtain ⟨q, dir, w, h1, h2⟩ := canSave_loaded (x := workStart.rebuildResources demoRes 1 6 true false) (by decide +kernel)
  obtain ⟨t, h3, h4⟩ := C69_resources_partial workStart q w 1 6 _ demoRes false 8 146 192 work_host ⟨rfl, by decide⟩ (by decide)
    demoRes_ok (by decide) (by decide) (by decide) (by decide) (by decide) (by decide) (Or.inr (Or.inl demoRes_len))
    (Or.inl demoRes_ne) dir h1 h2
  exact ⟨q, dir, w, t, h1, h2, h3, h4⟩

/-- Raw data and callbacks in the last section. -/
def workTls : TlsInfo :=
  { start := 2098, stop := 2102, index := 1040, callbacksRva := 2112, zeroFill := 9, chars := 3,
    raw := [10, 11, 12, 13], callbacks := [1024, 1028] }

theorem work_allHosts : AllHosts workStart where
  valid := work_saveable.table
  host := by
    intro j s hs
    match j with
    | 0 => rw [← Option.some.inj hs]; exact ⟨work_saveable.table, rfl, by decide, by decide, by decide, by decide⟩
    | 1 => rw [← Option.some.inj hs]; exact work_host
    | j + 2 => simp [workStart, workImage] at hs
  small := by decide

example : ∃ q dir r, workStart.rebuildTls workTls 1 18 true true .raw true false = .ok (q, dir) ∧ SavedLoaded q r ∧
    r.getTls = .ok workTls := by
  obtain ⟨q, dir, r, h1, h2⟩ := canSave_loaded (x := workStart.rebuildTls workTls 1 18 true true .raw true false)
    (by decide +kernel)
  exact ⟨q, dir, r, h1, h2, C69_tls_partial workStart q r 1 18 _ workTls .raw false work_allHosts rfl ⟨rfl, by decide⟩
    (by decide) (by decide) 20 (by decide) (by decide) (by decide)
    ⟨by decide, by decide, by decide, by decide, by decide, by decide, by decide, by decide⟩
    ⟨by decide, by decide, by decide, by decide, by decide⟩
    (fun _ => ⟨1, _, rfl, by decide, by decide⟩) (fun _ => ⟨1, _, rfl, by decide, by decide⟩)
    (by decide) (by decide) (by decide) dir h1 h2⟩

/-- One library whose two functions get new tables. -/
def workImports : List ImportLib :=
  [{ name := [0x62, 0x63], stamp := 4, funcs := [{ name := [0x66], hint := 1, iatVa := 0x55 }, { ordinal := 9, iatVa := 0x56 }] }]

theorem workImports_ok : ∀ l ∈ workImports, l.Ok workStart.noHdr 1 true true := by
  unfold workImports
  simp only [List.mem_cons, List.not_mem_nil, or_false]
  rintro l rfl
  refine ⟨by decide, by decide, fun _ => ?_, fun h => absurd h (by decide)⟩
  simp only [List.mem_cons, List.not_mem_nil, or_false]
  rintro f (rfl | rfl)
  · exact ⟨by decide, fun _ => by decide, fun h => absurd h (by decide), fun _ => by decide⟩
  · exact ⟨by decide, fun h => absurd rfl h, fun _ => by decide, fun _ => by decide⟩

example : ∃ q dir r l', workStart.rebuildImports workImports 1 {} 185 true true false = .ok (q, dir) ∧ SavedLoaded q r ∧
    r.getImports = .ok [l'] ∧ l'.name = [0x62, 0x63] ∧ l'.funcs = [{ name := [0x66], hint := 1, iatVa := 0x55 }, { ordinal := 9, iatVa := 0x56 }] := by
  obtain ⟨q, dir, r, h1, h2⟩ := canSave_loaded (x := workStart.rebuildImports workImports 1 {} 185 true true false)
    (by decide +kernel)
  obtain ⟨ls', h3, h4, h5⟩ := C69_imports_partial workStart q r 1 185 _ workImports {} true false work_host
    ⟨rfl, by decide⟩ (by decide) (fun _ => by decide) rfl rfl workImports_ok (by decide) 232 256 75
    ⟨by decide, by decide, by decide⟩ (by decide) (by decide +kernel) dir h1 h2
  obtain ⟨l', rfl⟩ : ∃ l', ls' = [l'] := by
    match ls', h4 with
    | [l'], _ => exact ⟨l', rfl⟩
  obtain h6 := h5 0 _ l' rfl rfl
  exact ⟨q, dir, r, l', h1, h2, h3, h6.name, (h6.fresh (by decide)).2 rfl⟩

/-- A library with a kept table that gets a lookup table, and the one above. -/
def workFill : List ImportLib := { name := [0x64, 0x65], stamp := 5, rvaIat := 1088 } :: workImports

theorem workFill_ok : ∀ l ∈ workFill, l.AllOk workStart.noHdr 1 { fill := true } := by
  unfold workFill workImports
  simp only [List.mem_cons, List.not_mem_nil, or_false]
  rintro l (rfl | rfl)
  · exact ⟨by decide, by decide, fun _ f hf => absurd hf (List.not_mem_nil), fun h => absurd h (by decide), fun _ => by decide,
      fun h => absurd (by decide) h, fun _ => ⟨by decide, by decide, by decide +kernel⟩, fun t ht => absurd ht (show ¬ t ∈ ([] : List (Nat × Nat)) from List.not_mem_nil)⟩
  · refine ⟨by decide, by decide, fun _ => ?_, fun _ _ => by decide, fun _ => by decide, fun _ h => absurd (by decide) h,
      fun h => absurd (by decide) h, fun t ht => absurd ht (show ¬ t ∈ ([] : List (Nat × Nat)) from List.not_mem_nil)⟩
    simp only [List.mem_cons, List.not_mem_nil, or_false]
    rintro f (rfl | rfl)
    · exact ⟨by decide, fun _ => by decide, fun h => absurd h (by decide)⟩
    · exact ⟨by decide, fun h => absurd rfl h, fun _ => by decide⟩

example : ∃ q dir r l1 l2, workStart.rebuildImports workFill 1 { fill := true } 154 true true false = .ok (q, dir) ∧ SavedLoaded q r ∧
    r.getImports = .ok [l1, l2] ∧ l1.name = [0x64, 0x65] ∧ l1.rvaIat = 1088 ∧ l1.rvaOrig ≠ 0 ∧ l2.name = [0x62, 0x63] ∧
    l2.funcs = [{ name := [0x66], hint := 1, iatVa := 0x55 }, { ordinal := 9, iatVa := 0x56 }] := by
  obtain ⟨q, dir, r, h1, h2⟩ := canSave_loaded (x := workStart.rebuildImports workFill 1 { fill := true } 154 true true false)
    (by decide +kernel)
  obtain ⟨ls', h3, h4, h5⟩ := C69_import_settings_partial workStart q r 1 154 _ workFill { fill := true } true false work_host
    ⟨rfl, by decide⟩ (by decide) (fun _ => by decide) workFill_ok
    (fun l hl t ht => by
      unfold workFill workImports at hl
      simp only [List.mem_cons, List.not_mem_nil, or_false] at hl
      rcases hl with rfl | rfl
      · exact absurd ht (show ¬ t ∈ ([] : List (Nat × Nat)) from List.not_mem_nil)
      · exact absurd ht (show ¬ t ∈ ([] : List (Nat × Nat)) from List.not_mem_nil))
    (show List.Pairwise TabsApart [] by decide) (by decide) 224 256 106
    ⟨by decide, by decide, by decide⟩ (by decide) (by decide +kernel) dir h1 h2
  obtain ⟨l1, l2, rfl⟩ : ∃ l1 l2, ls' = [l1, l2] := by
    match ls', h4 with
    | [l1, l2], _ => exact ⟨l1, l2, rfl⟩
  obtain h6 := h5 0 _ l1 rfl rfl
  obtain h7 := h5 1 _ l2 rfl rfl
  exact ⟨q, dir, r, l1, l2, h1, h2, h3, h6.name, h6.kept (by decide), h6.filled (by decide), h7.name, h7.exact (Or.inr (by decide))⟩

end PE
