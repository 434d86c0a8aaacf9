/-
C98: a bound import directory in the headers survives saving and loading.
-/
import Verif.Props.RebuildIff
import Verif.Props.Survive
namespace PE

theorem hasNul_take_append {a x : Bytes} {m n : Nat} (h : hasNul (a.take m) = true) (hmn : m ≤ n) : hasNul ((a ++ x).take n) = true := by
  unfold hasNul at *
  rw [List.any_eq_true] at *
  obtain ⟨c, hc, h0⟩ := h
  refine ⟨c, ?_, h0⟩
  obtain ⟨i, hi⟩ := List.mem_iff_getElem?.mp hc
  rw [List.getElem?_take] at hi
  split at hi
  · next hm =>
    have hil : i < a.length := (List.getElem?_eq_some_iff.mp hi).1
    refine List.mem_iff_getElem?.mpr ⟨i, ?_⟩
    rw [List.getElem?_take, if_pos (by omega), List.getElem?_append_left hil]
    exact hi
  · cases hi

theorem cstr_append {a x : Bytes} (h : hasNul a = true) : cstr (a ++ x) = cstr a := by
  unfold cstr hasNul at *
  induction a with
  | nil => simp at h
  | cons c a ih =>
    by_cases hc : c = 0
    · simp [hc]
    · have : (a.any (· == 0)) = true := by simpa [hc] using h
      simp only [List.cons_append, List.takeWhile_cons, ih this]

theorem readU_append (n : Nat) (b x : Bytes) (o : Nat) : OkLe (readU n b o) (readU n (b ++ x) o) := by
  intro v h
  unfold readU at *
  split at h
  · next hle =>
    rw [if_pos (by rw [List.length_append]; omega), ← h]
    unfold rd
    rw [slice_append_left hle]
  · cases h

theorem checkedCStr_append {b x : Bytes} {len len' : Nat} (hl : len ≤ len') (off : Nat) (e : Err) :
    OkLe (checkedCStr b len off e) (checkedCStr (b ++ x) len' off e) := by
  intro v h
  unfold checkedCStr at h
  obtain ⟨_, h1, h⟩ := bind_ok_iff.mp h
  obtain ⟨t, h2, h⟩ := bind_ok_iff.mp h
  obtain ⟨_, h3, h⟩ := bind_ok_iff.mp h
  rw [throwIf_ok_iff] at h1 h3
  have ht : t = true := by revert h3; cases t <;> simp
  subst ht
  have hn : hasNul ((b.drop off).take (len - off)) = true := by
    unfold isNullTerminated at h2
    split at h2
    · next h => exact h
    · split at h2 <;> cases h2
  have hoff : off ≤ b.length := by
    rcases Nat.lt_or_ge b.length off with g | g
    · rw [List.drop_eq_nil_of_le (by omega)] at hn
      simp [hasNul] at hn
    · exact g
  have hd : (b ++ x).drop off = b.drop off ++ x := List.drop_append_of_le_length hoff
  have hn' := hasNul_take_append (x := x) hn (show len - off ≤ len' - off by omega)
  have hn2 : hasNul (b.drop off) = true := by
    have := hasNul_take_append (x := []) hn (show len - off ≤ (b.drop off).length + (len - off) by omega)
    rw [List.append_nil, List.take_of_length_le (by omega)] at this
    exact this
  have hn3 : hasNul (b.drop off ++ x) = true := by
    unfold hasNul at *; rw [List.any_append, hn2, Bool.true_or]
  unfold readCStr at h
  rw [if_pos hn2] at h
  unfold checkedCStr isNullTerminated readCStr throwIf
  rw [if_neg (by omega), ok_bind, hd, if_pos hn', ok_bind, if_neg (by decide), ok_bind, if_pos hn3, cstr_append hn2]
  exact h

theorem throwIf_le {c c' : Prop} [Decidable c] [Decidable c'] (h : c' → c) (e : Err) : OkLe (throwIf c e) (throwIf c' e) := by
  intro v hv
  rw [throwIf_ok_iff] at hv ⊢
  exact fun g => hv (h g)

theorem boundRefs_append {b x : Bytes} {len len' : Nat} (hl : len ≤ len') (n pos : Nat) :
    OkLe (boundRefs b len n pos) (boundRefs (b ++ x) len' n pos) := by
  induction n generalizing pos with
  | zero => exact OkLe.refl _
  | succ n ih =>
    rw [boundRefs, boundRefs]
    exact OkLe.bind (throwIf_le (by omega) _) fun _ => OkLe.bind (readU_append _ _ _ _) fun _ => OkLe.bind (checkedCStr_append hl _ _) fun _ =>
      OkLe.bind (readU_append _ _ _ _) fun _ => OkLe.bind (ih _) fun _ => OkLe.refl _

/-- More bytes behind the data do not change what is read. -/
theorem boundLoop_append {b x : Bytes} {len len' : Nat} (hl : len ≤ len') (pos : Nat) :
    OkLe (boundLoop b len pos) (boundLoop (b ++ x) len' pos) := by
  induction hm : len - pos using Nat.strongRecOn generalizing pos with
  | _ m ih =>
    rw [boundLoop, boundLoop]
    refine OkLe.bind (readU_append _ _ _ _) fun off => OkLe.ite (fun _ => OkLe.refl _) fun _ =>
      OkLe.bind (checkedCStr_append hl _ _) fun _ => OkLe.bind (readU_append _ _ _ _) fun _ => OkLe.bind (readU_append _ _ _ _) fun n =>
      OkLe.bind' fun _ => OkLe.bind (boundRefs_append hl _ _) fun _ => OkLe.bind (throwIf_le (by omega) _) fun _ => ?_
    intro v hv
    by_cases hc : pos < w32 (pos + 8 + 8 * n) ∧ w32 (pos + 8 + 8 * n) < len
    · rw [dif_pos hc] at hv
      rw [dif_pos ⟨hc.1, by omega⟩]
      exact (OkLe.bind (ih _ (by omega) _ rfl) fun _ => OkLe.refl _) v hv
    · rw [dif_neg hc] at hv
      cases hv

/-- The bound imports, as far as the directory goes: the headers are cut off at its end. -/
def Image.cutBound (p : Image) : Image := { p with hdrData := p.hdrData.take (p.boundDir.1 + p.boundDir.2) }

/-- What is read from a directory in the headers. -/
theorem getBound_hdr {p : Image} {d : Nat × Nat} (ho : p.nt.DirsOk) (hi : dirBoundImport < p.nt.numRva) (hd : p.nt.dirs[dirBoundImport]? = some d)
    (h0 : d.1 ≠ 0) (hlt : d.1 < p.hdrData.length) (hl : p.hdrData.length < 4294967296) :
    p.getBound = (if p.hdrData.length - d.1 < d.2 ∨ p.hdrData.length - d.1 < 8 then throwE .incorrectBoundImportDirectory else
      boundLoop (p.hdrData.drop d.1) (p.hdrData.length - d.1) 0) := by
  obtain ⟨g1, g2, g3⟩ := getDir_stored ho hi hd
  unfold Image.getBound Image.hasDir
  rw [g3, ok_bind, if_pos (decide_eq_true h0), g1, ok_bind]
  unfold Image.dataLenFrom Image.ptrFromRva
  rw [if_pos ⟨rfl, hlt, hlt⟩, ok_bind, g2, ok_bind, if_pos ⟨rfl, hlt⟩, w32_id' (by omega)]
  by_cases h1 : p.hdrData.length - d.1 < d.2
  · rw [if_pos (.inl h1)]; unfold throwIf; rw [if_pos h1]; rfl
  · by_cases h2 : p.hdrData.length - d.1 < 8
    · rw [if_pos (.inr h2)]; unfold throwIf; rw [if_neg h1, if_pos h2]; rfl
    · rw [if_neg (by omega)]; unfold throwIf; rw [if_neg h1, if_neg h2]; rfl

/-- The directory of the cut headers decides what is read from longer ones. -/
theorem getBound_cut {p r : Image} {d e : Nat × Nat} {v : List BoundMod} (ho : p.nt.DirsOk) (hi : dirBoundImport < p.nt.numRva)
    (hd : p.nt.dirs[dirBoundImport]? = some d) (h0 : d.1 ≠ 0) (hs : 0 < d.2) (hin : d.1 + d.2 ≤ p.hdrData.length) (hsz : d.1 + d.2 < 4294967296)
    (h : ({ p with hdrData := p.hdrData.take (d.1 + d.2) } : Image).getBound = .ok v)
    (ho' : r.nt.DirsOk) (hi' : dirBoundImport < r.nt.numRva) (hd' : r.nt.dirs[dirBoundImport]? = some e) (h0' : e.1 ≠ 0) (hse : e.2 = d.2)
    (hin' : e.1 + e.2 ≤ r.hdrData.length) (hl' : r.hdrData.length < 4294967296) (hsl : slice r.hdrData e.1 e.2 = slice p.hdrData d.1 d.2) :
    r.getBound = .ok v := by
  have hlen : (p.hdrData.take (d.1 + d.2)).length = d.1 + d.2 := by rw [List.length_take]; omega
  rw [getBound_hdr (p := { p with hdrData := p.hdrData.take (d.1 + d.2) }) ho hi hd h0 (by show _ < (List.take _ _).length; omega)
    (by show (List.take _ _).length < _; omega)] at h
  dsimp only at h
  rw [hlen, Nat.add_sub_cancel_left] at h
  rw [getBound_hdr ho' hi' hd' h0' (by omega) hl']
  split at h
  · cases h
  · rw [if_neg (by omega)]
    have e1 : (p.hdrData.take (d.1 + d.2)).drop d.1 = slice p.hdrData d.1 d.2 := by
      unfold slice; rw [List.drop_take, Nat.add_sub_cancel_left]
    have e2 : r.hdrData.drop e.1 = slice r.hdrData e.1 e.2 ++ (r.hdrData.drop e.1).drop e.2 := by
      unfold slice; exact (List.take_append_drop _ _).symm
    rw [e1] at h
    rw [e2, hsl]
    exact boundLoop_append (by omega) 0 v h

/-- A directory of bound imports that is moved: where it is in the file that is opened, and with what contents. -/
theorem saved_bound {p q r : Image} {strip chg sb strict dbg : Bool} {out : Bytes} {pre : List (Nat × Nat)}
    (hp : pre.length = 16) (hd : ∀ d ∈ pre, d.1 < 2 ^ 32) (hv : p.Saveable strip chg sb) (h : p.rebuildPe strip chg sb = .ok (q, out))
    (hb : p.HasBound) (hsv : p.savesBound sb = true) (hs : 0 < p.boundDir.2) (hin : p.boundDir.1 + p.boundDir.2 ≤ p.hdrData.length)
    (hc : chg = true ∨ p.tableEnd strip + p.boundDir.2 ≤ p.nt.sizeHeaders)
    (hr : load p.kind strict false dbg pre out = .ok r) :
    r.nt.DirsOk ∧ r.nt.numRva = p.nt.numRva ∧ r.nt.dirs[dirBoundImport]? = some (p.tableEnd strip, p.boundDir.2) ∧
      p.tableEnd strip + p.boundDir.2 ≤ r.nt.sizeHeaders ∧ p.tableEnd strip + p.boundDir.2 ≤ r.hdrData.length ∧
      r.hdrData.length < 4294967296 ∧ slice r.hdrData (p.tableEnd strip) p.boundDir.2 = slice p.hdrData p.boundDir.1 p.boundDir.2 := by
  have fa := hv.table.fa
  have ho := hv.sized.dirs
  obtain ⟨hq, e1, -⟩ := rebuildPe_ok hv.sized fa h
  obtain ⟨hbd, b, o, hptr, hle, hsl⟩ := C18_bound p q strip chg sb out hv.sized hv.shaped fa hv.fits h hb hsv
  have hbo : b = p.hdrData ∧ o = p.boundDir.1 := by
    unfold Image.ptrFromRva at hptr
    rw [if_pos ⟨rfl, by omega⟩] at hptr
    cases hptr
    exact ⟨rfl, rfl⟩
  rw [hbo.1, hbo.2] at hsl
  obtain ⟨r', h1, -, h3, h4, -⟩ := C19_save_load p q strip chg sb strict dbg out pre hp hd hv h
  have hrr : r = r' := by rw [hr] at h1; exact Except.ok.inj h1
  subst hrr
  obtain ⟨-, -, -, -, hhd, -⟩ := load_fields h1
  have hbs : p.boundSize (p.savesBound sb) = p.boundDir.2 := if_pos ⟨hsv, hb⟩
  have hdo := rebuilt_dirsOk hv.sized strip chg (p.savesBound sb)
  have hnr : r.nt.numRva = p.nt.numRva := by rw [h3]; show q.nt.numRva = _; rw [e1]; rfl
  have hrdir : r.nt.dirs[dirBoundImport]? = some (p.tableEnd strip, p.boundDir.2) := by
    rw [h3]
    show (q.nt.dirs.take p.nt.numRva ++ pre.drop p.nt.numRva)[dirBoundImport]? = _
    have hn := ho.count
    have hb1 := hb.1
    rw [e1, List.getElem?_append_left (by rw [List.length_take, hdo.slots]; unfold dirBoundImport; omega), List.getElem?_take,
      if_pos (show dirBoundImport < p.nt.numRva from hb.1)]
    have := boundDir_get hdo
    rw [this, ← e1, hbd]
  have hpos := tableEnd_pos p strip
  have hge := tableEnd_le_dataStart fa strip (p.savesBound sb)
  have hge2 : p.tableEnd strip + p.boundDir.2 ≤ p.dataStart strip (p.savesBound sb) := by
    unfold Image.dataStart; rw [hbs]; exact ceilTo_ge fa.pos
  have hfit : p.dataStart strip (p.savesBound sb) < 4294967296 := by
    have h1 := rawOffset_ge p.nt.fileAlign (p.dataStart strip (p.savesBound sb)) p.secs p.secs.length
    have h2 := hv.fits
    unfold Image.FileFits at h2
    omega
  have hsh : p.tableEnd strip + p.boundDir.2 ≤ r.nt.sizeHeaders ∧ r.nt.sizeHeaders < 4294967296 := by
    have e3 : r.nt.sizeHeaders = (rebuiltNt p strip chg (p.savesBound sb)).sizeHeaders := by
      rw [h3]; show q.nt.sizeHeaders = _; rw [e1]; rfl
    have hin := rebuiltNt_inRange hv.ntRange strip chg (p.savesBound sb)
    rw [e3]
    constructor
    · cases chg
      · rcases hc with hc | hc
        · cases hc
        · exact hc
      · show _ ≤ w32 (p.dataStart strip (p.savesBound sb))
        rw [w32_id' hfit]; exact hge2
    · have := hin.all (4, (rebuiltNt p strip chg (p.savesBound sb)).sizeHeaders) (by
        generalize p.kind = k; cases k <;> simp [ntFields, Kind.ptr])
      simpa using this
  have hol : p.tableEnd strip + p.boundDir.2 ≤ out.length := by
    have h2 := congrArg List.length hsl
    rw [slice_length_of_le (b := p.hdrData) hin, slice_length] at h2
    omega
  have hlen : p.tableEnd strip + p.boundDir.2 ≤ r.hdrData.length ∧ r.hdrData.length < 4294967296 := by
    have hn : p.tableEnd strip + p.boundDir.2 ≤ headersLen r.nt out.length r.secs ∧ headersLen r.nt out.length r.secs ≤ r.nt.sizeHeaders := by
      unfold headersLen
      cases hf : r.secs.find? (fun s => !s.empty) with
      | none =>
        dsimp only
        refine ⟨Nat.le_min.mpr ⟨hsh.1, ?_⟩, Nat.min_le_left _ _⟩
        have h5 := (C18_data_partial p q strip chg sb out hv.sized hv.shaped fa hv.fits hv.noStale h).2.2.2
        have h6 := hv.fits
        unfold Image.FileFits at h6
        rw [w32_id' (by omega)]
        exact hol
      | some s =>
        dsimp only
        refine ⟨Nat.le_min.mpr ⟨hsh.1, ?_⟩, Nat.min_le_left _ _⟩
        have hm := List.mem_of_find?_eq_some hf
        have hne := List.find?_some hf
        rw [h4] at hm
        obtain ⟨i, hi⟩ := List.mem_iff_getElem?.mp hm
        obtain ⟨hlen, hget, -⟩ := C17_layout p q strip chg (p.savesBound sb) _ hv.sized hv.shaped fa hv.fits hq
        have hil : i < p.secs.length := by rw [← hlen]; exact (List.getElem?_eq_some_iff.mp hi).1
        obtain ⟨t, ht, e5, e6⟩ := hget i _ (List.getElem?_eq_getElem hil)
        rw [hi] at ht
        cases ht
        have hsz := hv.sizes _ (List.getElem_mem hil)
        have : p.secs[i].rawSize ≠ 0 := by
          intro h0
          rw [e5] at hne
          simp only [Sec.empty, Bool.not_eq_true', List.isEmpty_eq_false_iff] at hne
          exact hne (List.length_eq_zero_iff.mp (by omega))
        have := (e6 this).2
        rw [hbs] at this
        exact this
    rw [hhd, slice_length]
    omega
  have hrs : slice r.hdrData (p.tableEnd strip) p.boundDir.2 = slice p.hdrData p.boundDir.1 p.boundDir.2 := by
    rw [← hsl, hhd]
    have hl1 := hlen.1
    rw [hhd, slice_length] at hl1
    rw [slice_slice (by omega), Nat.zero_add]
  have hro : r.nt.DirsOk := by
    refine ⟨?_, by rw [hnr]; exact ho.count⟩
    rw [h3]
    show (q.nt.dirs.take p.nt.numRva ++ pre.drop p.nt.numRva).length = 16
    have hn := ho.count
    rw [e1, List.length_append, List.length_take, List.length_drop, hdo.slots, hp]
    omega
  exact ⟨hro, hnr, hrdir, hsh.1, hlen.1, hlen.2, hrs⟩

/-- C98: a bound import directory in the headers (where linkers put it) is read from the saved file as it was read from the image:
    all modules, time stamps and references, if names and references lie within the directory. Only asked: bound imports are to be
    saved, and the headers are long enough (which they are if their size is updated). -/
theorem C98_kept_partial (p q : Image) (strip chg sb strict dbg : Bool) (out : Bytes) (pre : List (Nat × Nat)) (v : List BoundMod)
    (hp : pre.length = 16) (hd : ∀ d ∈ pre, d.1 < 2 ^ 32) (hv : p.Saveable strip chg sb) (h : p.rebuildPe strip chg sb = .ok (q, out))
    (hb : p.HasBound) (hsv : p.savesBound sb = true) (hs : 0 < p.boundDir.2) (hin : p.boundDir.1 + p.boundDir.2 ≤ p.hdrData.length)
    (hl : p.hdrData.length < 4294967296) (hc : chg = true ∨ p.tableEnd strip + p.boundDir.2 ≤ p.nt.sizeHeaders)
    (hcut : p.cutBound.getBound = .ok v) :
    p.getBound = .ok v ∧ ∃ r, load p.kind strict false dbg pre out = .ok r ∧ r.getBound = .ok v := by
  have fa := hv.table.fa
  have ho := hv.sized.dirs
  have hself := getBound_cut ho hb.1 (boundDir_get ho) hb.2 hs hin (by omega) hcut ho hb.1 (boundDir_get ho) hb.2 rfl hin hl rfl
  refine ⟨hself, ?_⟩
  obtain ⟨r, h1, -⟩ := C19_save_load p q strip chg sb strict dbg out pre hp hd hv h
  obtain ⟨hro, hnr, hrdir, -, hl1, hl2, hrs⟩ := saved_bound hp hd hv h hb hsv hs hin hc h1
  have hpos := tableEnd_pos p strip
  refine ⟨r, h1, getBound_cut ho hb.1 (boundDir_get ho) hb.2 hs hin (by omega) hcut hro (by rw [hnr]; exact hb.1) hrdir (by dsimp only; omega) rfl
    hl1 hl2 hrs⟩

/-- The same, without asking that saving succeeds: it does if there is room for the headers. -/
theorem C98_saved_partial (p : Image) (strip chg sb strict dbg : Bool) (pre : List (Nat × Nat)) (v : List BoundMod)
    (hp : pre.length = 16) (hd : ∀ d ∈ pre, d.1 < 2 ^ 32) (hv : p.Saveable strip chg sb)
    (hb : p.HasBound) (hsv : p.savesBound sb = true) (hs : 0 < p.boundDir.2) (hin : p.boundDir.1 + p.boundDir.2 ≤ p.hdrData.length)
    (hl : p.hdrData.length < 4294967296) (hc : chg = true ∨ p.tableEnd strip + p.boundDir.2 ≤ p.nt.sizeHeaders)
    (hroom : chg = true → ∀ s, p.secs.head? = some s → p.dataStart strip true ≤ s.va) (hcut : p.cutBound.getBound = .ok v) :
    p.getBound = .ok v ∧ ∃ q out r, p.rebuildPe strip chg sb = .ok (q, out) ∧ load p.kind strict false dbg pre out = .ok r ∧ r.getBound = .ok v := by
  have hlt : p.tableEnd strip < 4294967296 := by
    have h1 := rawOffset_ge p.nt.fileAlign (p.dataStart strip (p.savesBound sb)) p.secs p.secs.length
    have h2 := tableEnd_le_dataStart hv.table.fa strip (p.savesBound sb)
    have h3 := hv.fits
    unfold Image.FileFits at h3
    omega
  have hn0 : p.nt.numRva ≠ 0 := by have := hb.1; omega
  obtain ⟨q, out, h⟩ := (C18_completes_iff p strip chg sb hv.sized hv.table.fa hn0
    ⟨hl, fun s hs => by have := hv.sizes s hs; omega⟩ hlt).mpr ⟨fun _ _ => ⟨p.hdrData, p.boundDir.1, by
      unfold Image.ptrFromRva; rw [if_pos ⟨rfl, by omega⟩], by omega, fun _ => by omega⟩, fun hc s hs => by
      have := hroom hc s hs
      have := Nat.mod_le (p.dataStart strip (p.savesBound sb)) 4294967296
      rw [hsv] at this ⊢
      unfold w32
      omega, fun s hs => by have := (hv.sizes s hs).1; omega⟩
  obtain ⟨h1, r, h2, h3⟩ := C98_kept_partial p q strip chg sb strict dbg out pre v hp hd hv h hb hsv hs hin hl hc hcut
  exact ⟨h1, q, out, r, h, h2, h3⟩

/-! ### A case the theorems apply to, and the case that is excluded -/

/-- An image with a bound import directory at address 32 of the headers: one module `AB` with the time stamp 7, its name behind the
    terminating descriptor. `n` is the size of the directory. -/
def linkedImage (n : Nat) : Image :=
  { savedImage with
    hdrData := zeros 32 ++ ([7, 0, 0, 0, 16, 0, 0, 0] ++ (zeros 8 ++ [65, 66, 0, 9])),
    nt := { savedImage.nt with numRva := 12, sizeHeaders := 512, dirs := List.replicate 11 (0, 0) ++ [(32, n)] ++ List.replicate 4 (0, 0) } }

theorem linkedImage_saveable : (linkedImage 19).Saveable false true true := by
  have hmem : ∀ s ∈ (linkedImage 19).secs, s = { tinySec 30 1024 20 0 with data := (zeros 20).map (· + 7) } ∨
      s = { tinySec 5 1056 4 0 with data := [1, 2, 3, 4] } := by
    intro s hs
    simpa only [linkedImage, savedImage, List.mem_cons, List.not_mem_nil, or_false] using hs
  refine ⟨⟨⟨rfl, by decide⟩, by decide, by decide, by decide⟩, ⟨rfl, savedImage_shaped.names, savedImage_shaped.raws⟩, by decide, by decide, rfl, rfl,
    ⟨by decide, fun h => by cases h⟩, by decide,
    .inl rfl, ⟨⟨4, by decide, rfl⟩, savedImage_pow2, by decide, ?_, by decide, by decide, ⟨by decide, trivial⟩, by decide, by decide, by decide⟩,
    by decide, ?_, by decide, .inl rfl, ?_, by decide⟩
  · intro s hs
    rcases hmem s hs with rfl | rfl <;> constructor <;> decide
  · intro s hs
    rcases hmem s hs with rfl | rfl <;> constructor <;> decide
  · intro i s hi h0
    rcases hmem s (List.mem_of_getElem? hi) with rfl | rfl <;> exact absurd h0 (by decide)

example : (linkedImage 19).getBound = .ok [⟨[65, 66], 7, []⟩] ∧ ∃ q out r, (linkedImage 19).rebuildPe false true true = .ok (q, out) ∧
    load .pe32 true false false zeroDirs out = .ok r ∧ r.getBound = .ok [⟨[65, 66], 7, []⟩] :=
  C98_saved_partial (linkedImage 19) false true true true false zeroDirs _ (by decide) (by decide) linkedImage_saveable (by decide)
    (by decide) (by decide) (by decide) (by decide) (.inl rfl) (by decide +kernel) (by decide +kernel)

/-- C98 fails when the size of the directory does not cover the names (readers do not mind): only the bytes of the directory are moved, so
    that the names are lost. Nothing is reported: the module read from the saved file has another name. -/
theorem C98_names_lost : ∃ (p q r : Image) (out : Bytes), p.HasBound ∧ p.getBound = .ok [⟨[65, 66], 7, []⟩] ∧
    p.rebuildPe false true true = .ok (q, out) ∧ load .pe32 true false false zeroDirs out = .ok r ∧ r.getBound = .ok [⟨[], 7, []⟩] := by
  obtain ⟨⟨q, out⟩, h1, h2⟩ := exists_of_okAnd (x := (linkedImage 16).rebuildPe false true true)
    (f := fun x => match load .pe32 true false false zeroDirs x.2 with
      | .ok r => decide (r.getBound = .ok [⟨[], 7, []⟩])
      | _ => false) (by decide +kernel)
  dsimp only at h2
  split at h2
  · next r hr => exact ⟨linkedImage 16, q, r, out, by decide, by decide +kernel, h1, hr, of_decide_eq_true h2⟩
  · cases h2

end PE
