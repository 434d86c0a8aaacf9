/-
Helper lemmas: reading an import directory that was written with any settings.
-/
import Verif.Lemmas.ImportsAllLibs

namespace PE

/-! ### Tables -/

/-- The image shows at the address `a` a table of these values with a final 0. -/
def Tbl (q : Image) : Nat → List Nat → Prop
  | a, [] => q.readInt q.kind.ptr a .virt true = .ok 0
  | a, v :: vs => q.readInt q.kind.ptr a .virt true = .ok v ∧ v ≠ 0 ∧ a + q.kind.ptr < 2 ^ 32 ∧ Tbl q (a + q.kind.ptr) vs

/-- The functions belong to the lookup values. -/
def FoundFns (q : Image) : List ImportFn → List Nat → Prop
  | [], [] => True
  | f :: fs, v :: vs => q.importFn f.iatVa v = .ok f ∧ FoundFns q fs vs
  | _, _ => False

theorem importThunks_tbl {q : Image} : ∀ (fs : List ImportFn) (vs : List Nat) (ft oft : Nat), FoundFns q fs vs →
    Tbl q ft (fs.map ImportFn.iatVa) → Tbl q oft vs → q.importThunks ft oft = .ok fs
  | [], [], ft, oft, _, h1, _ => by
    rw [Image.importThunks, h1, ok_bind, if_pos rfl]
  | f :: fs, v :: vs, ft, oft, h0, h1, h2 => by
    obtain ⟨a1, a2, a3, a4⟩ := h1
    obtain ⟨b1, b2, b3, b4⟩ := h2
    have w1 : w32 (ft + q.kind.ptr) = ft + q.kind.ptr := by rw [w32, Nat.mod_eq_of_lt (by omega)]
    have w2 : w32 (oft + q.kind.ptr) = oft + q.kind.ptr := by rw [w32, Nat.mod_eq_of_lt (by omega)]
    have hp := q.kind.ptr_cases
    rw [Image.importThunks, a1, ok_bind, if_neg a2, b1, ok_bind, if_neg b2, h0.1, ok_bind, dif_pos (by rw [w1]; omega), w1, w2,
      importThunks_tbl fs vs _ _ h0.2 a4 b4, ok_bind]
  | [], _ :: _, _, _, h0, _, _ => h0.elim
  | _ :: _, [], _, _, h0, _, _ => h0.elim

theorem importTables_two {q : Image} {fs : List ImportFn} {vs : List Nat} {ft oft : Nat} (h0 : FoundFns q fs vs)
    (h1 : Tbl q ft (fs.map ImportFn.iatVa)) (h2 : Tbl q oft vs) (hne : oft ≠ 0) : q.importTables ft oft = .ok fs := by
  unfold Image.importTables Image.importLookup0
  have ht := importThunks_tbl fs vs ft oft h0 h1 h2
  match fs, vs, h0, h1, h2 with
  | [], [], _, h1, h2 => rw [h1, ok_bind, if_neg hne, h2, ok_bind, if_neg (by simp)]
  | f :: fs, v :: vs, _, h1, h2 => rw [h1.1, ok_bind, if_neg hne, h2.1, ok_bind, if_pos ⟨h2.2.1, h1.2.1⟩, if_neg hne]; exact ht

theorem importTables_one {q : Image} {fs : List ImportFn} {ft : Nat} (h0 : FoundFns q fs (fs.map ImportFn.iatVa))
    (h1 : Tbl q ft (fs.map ImportFn.iatVa)) : q.importTables ft 0 = .ok fs := by
  unfold Image.importTables Image.importLookup0
  have ht := importThunks_tbl fs _ ft ft h0 h1 h1
  match fs, h1 with
  | [], h1 => rw [h1, ok_bind, if_pos rfl, ok_bind, if_neg (by simp)]
  | f :: fs, h1 => rw [h1.1, ok_bind, if_pos rfl, ok_bind, if_pos ⟨h1.2.1, h1.2.1⟩, if_pos rfl]; exact ht

theorem importFn_iatVa {p : Image} {a v : Nat} {f : ImportFn} (h : p.importFn a v = .ok f) : f.iatVa = a := by
  unfold Image.importFn at h
  split at h
  · cases h; rfl
  · obtain ⟨_, _, h⟩ := bind_ok_iff.mp h
    obtain ⟨_, _, h⟩ := bind_ok_iff.mp h
    obtain ⟨_, _, h⟩ := bind_ok_iff.mp h
    cases h; rfl

/-- A table that is its own lookup table. -/
theorem tbl_of_importThunks {p : Image} {a : Nat} {fs : List ImportFn} (ha : a < 2 ^ 32) (h : p.importThunks a a = .ok fs) :
    Tbl p a (fs.map ImportFn.iatVa) := by
  induction hm : 4294967296 - a using Nat.strongRecOn generalizing a fs with
  | _ m ih =>
    rw [Image.importThunks] at h
    obtain ⟨x, hx, h⟩ := bind_ok_iff.mp h
    split at h
    · next hc => cases h; rw [hc] at hx; exact hx
    · next hc =>
      rw [hx, ok_bind, if_neg hc] at h
      obtain ⟨f, hf, h⟩ := bind_ok_iff.mp h
      split at h
      · next hlt =>
        obtain ⟨r, hr, h⟩ := bind_ok_iff.mp h
        cases h
        have hp := p.kind.ptr_cases
        have hb : a + p.kind.ptr < 2 ^ 32 := by
          simp only [w32] at hlt
          omega
        have w1 : w32 (a + p.kind.ptr) = a + p.kind.ptr := by rw [w32, Nat.mod_eq_of_lt (by omega)]
        rw [w1] at hr
        rw [List.map_cons, importFn_iatVa hf]
        exact ⟨hx, hc, hb, ih _ (by omega) hb hr rfl⟩
      · simp [ubE] at h

theorem tbl_of_importTables {p : Image} {a : Nat} {fs : List ImportFn} (ha : a < 2 ^ 32) (h : p.importTables a 0 = .ok fs) :
    Tbl p a (fs.map ImportFn.iatVa) := by
  unfold Image.importTables Image.importLookup0 at h
  obtain ⟨x, hx, h⟩ := bind_ok_iff.mp h
  rw [if_pos rfl, ok_bind] at h
  split at h
  · next hc => rw [if_pos rfl] at h; exact tbl_of_importThunks ha h
  · next hc =>
    cases h
    have : x = 0 := by
      refine Decidable.byContradiction (fun hn => hc ⟨hn, hn⟩)
    rw [this] at hx
    exact hx

theorem Tbl.within {p q : Image} (h : Within p q) : ∀ {vs : List Nat} {a : Nat}, Tbl p a vs → Tbl q a vs
  | [], _, ht => by
    have := h.readInt ht
    unfold Tbl; rw [h.kind]; exact this
  | v :: vs, a, ht => by
    obtain ⟨a1, a2, a3, a4⟩ := ht
    refine ⟨by rw [h.kind]; exact h.readInt a1, a2, by rw [h.kind]; exact a3, ?_⟩
    rw [h.kind]
    exact Tbl.within h a4

/-! ### Written tables -/

theorem encVals_cons' (n v : Nat) (vs : List Nat) : encVals n (v :: vs) = leBytes n v ++ encVals n vs := by
  unfold encVals; rw [List.flatMap_cons]

theorem Window.tbl {q : Image} {va : Nat} {m : Bytes} {s : Sec} (hw : Window q va m s) : ∀ (vs : List Nat) (o : Nat),
    At m o (encVals q.kind.ptr vs ++ leBytes q.kind.ptr 0) → (∀ v ∈ vs, v ≠ 0 ∧ v < 256 ^ q.kind.ptr) → Tbl q (va + o) vs := by
  intro vs
  have hp := q.kind.ptr_cases
  have hfin := hw.fin
  have hz : (0 : Nat) < 256 ^ q.kind.ptr := by rcases hp with hp | hp <;> rw [hp] <;> decide
  induction vs with
  | nil => intro o h _; exact hw.readInt_at true (v := 0) h (by omega) hz
  | cons v vs ih =>
    intro o h hv
    simp only [encVals_cons', List.append_assoc] at h
    have l := h.1
    simp only [List.length_append, leBytes_length] at l
    have h1 := hv v List.mem_cons_self
    refine ⟨hw.readInt_at true h.left (by omega) h1.2, h1.1, by omega, ?_⟩
    rw [Nat.add_assoc]
    exact ih _ (h.right (by rw [leBytes_length])) (fun x hx => hv x (List.mem_cons_of_mem _ hx))

def lookVals (ptr va : Nat) : Nat → List ImportFn → List Nat
  | _, [] => []
  | ps, f :: fs => lookVal ptr va ps f :: lookVals ptr va (ps + (fnStr f).length) fs

theorem lookBytes_vals (ptr va ps : Nat) (fs : List ImportFn) : lookBytes ptr va ps fs = encVals ptr (lookVals ptr va ps fs) := by
  induction fs generalizing ps with
  | nil => rfl
  | cons f fs ih => rw [lookBytes, lookVals, encVals_cons', ih]

theorem iatBytes_vals (ptr : Nat) (b : Bool) (va ps : Nat) (fs : List ImportFn) :
    iatBytes ptr b va ps fs = encVals ptr ((readFns ptr b va ps fs).map ImportFn.iatVa) := by
  induction fs generalizing ps with
  | nil => rfl
  | cons f fs ih => rw [iatBytes, readFns, List.map_cons, encVals_cons', ih]

theorem readFns_look (ptr va ps : Nat) (fs : List ImportFn) :
    (readFns ptr false va ps fs).map ImportFn.iatVa = lookVals ptr va ps fs := by
  induction fs generalizing ps with
  | nil => rfl
  | cons f fs ih => rw [readFns, List.map_cons, lookVals, ih]; rfl

theorem lookVals_ok {ptr va : Nat} (hp : ptr = 4 ∨ ptr = 8) (h0 : 0 < va) : ∀ {fs : List ImportFn} {ps : Nat}, (∀ f ∈ fs, f.Shape) →
    va + ps + (fnStrs fs).length < 2 ^ 32 → ∀ v ∈ lookVals ptr va ps fs, v ≠ 0 ∧ v < 256 ^ ptr
  | [], _, _, _, v, hv => by simp [lookVals] at hv
  | f :: fs, ps, hs, hl, v, hv => by
    simp only [fnStrs, List.length_append] at hl
    have hf := hs f List.mem_cons_self
    rcases List.mem_cons.mp hv with rfl | hv
    · exact ⟨lookVal_ne hp (fun hn => (hf.unnamed hn).2) h0, lookVal_lt hp (fun hn => (hf.unnamed hn).2) (by omega)⟩
    · exact lookVals_ok hp h0 (fun g hg => hs g (List.mem_cons_of_mem _ hg)) (by omega) v hv

theorem importFn_shape {q : Image} {va : Nat} {m : Bytes} {s : Sec} (hw : Window q va m s) {f : ImportFn}
    (hf : f.Shape) {ps : Nat} (ha : At m ps (fnStr f)) (hlow : q.kind.ptr = 4 → f.name ≠ [] → va + ps < 2 ^ 31) (a : Nat) :
    q.importFn a (lookVal q.kind.ptr va ps f) = .ok { f with iatVa := a } := by
  -- the lemma for functions with an address
  have hx : ({ f with iatVa := 1 } : ImportFn).Ok q.kind.ptr true := by
    refine ⟨hf.name, hf.named, fun h => ⟨(hf.unnamed h).1, (hf.unnamed h).2, rfl⟩, fun _ => ⟨Nat.one_ne_zero, ?_⟩⟩
    show 1 < 256 ^ q.kind.ptr
    rcases q.kind.ptr_cases with h | h <;> rw [h] <;> decide
  exact importFn_eq (f := { f with iatVa := 1 }) hw hx ha hlow a

theorem found_of {q : Image} {va : Nat} {m : Bytes} {s : Sec} (hw : Window q va m s) (b : Bool) : ∀ {fs : List ImportFn} {ps : Nat},
    (∀ f ∈ fs, f.Shape) → At m ps (fnStrs fs) → (q.kind.ptr = 4 → va + ps + (fnStrs fs).length ≤ 2 ^ 31) →
    FoundFns q (readFns q.kind.ptr b va ps fs) (lookVals q.kind.ptr va ps fs)
  | [], _, _, _, _ => trivial
  | f :: fs, ps, hs, ha, hl => by
    simp only [fnStrs, List.length_append] at ha hl
    refine ⟨importFn_shape hw (hs f List.mem_cons_self) ha.left (fun h hne => ?_) _, found_of hw b (fun g hg => hs g (List.mem_cons_of_mem _ hg))
      (ha.right rfl) (fun h => by have := hl h; omega)⟩
    have := hl h
    have := fnStr_length f
    rw [if_neg hne] at this
    omega

/-! ### Libraries -/

/-- The functions that are read for a library. -/
def allFns (c : ImportCfg) (n va ps : Nat) (l : ImportLib) : List ImportFn :=
  if l.Written c then readFns n (allB c l) va (ps + (l.name.length + 1)) l.funcs else l.funcs

def readAll (c : ImportCfg) (n va : Nat) : (ps pi po : Nat) → List ImportLib → List ImportLib
  | _, _, _, [] => []
  | ps, pi, po, l :: ls =>
    { name := l.name, stamp := l.stamp, rvaIat := allFt c va pi l, rvaOrig := allOft c va po l, funcs := allFns c n va ps l } ::
      readAll c n va (ps + (libStr l).length) (pi + (allI c l).raw (n * (l.funcs.length + 1)))
        (po + (allO c l).raw (n * (l.funcs.length + 1))) ls

theorem allDescs_split (c : ImportCfg) (n va ps pi po : Nat) (ls : List ImportLib) :
    ∃ x y, allDescs c n va ps pi po ls = x ++ y ∧ x.length = 20 := by
  cases ls with
  | nil => exact ⟨zeros 20, [], by simp [allDescs], by simp⟩
  | cons l ls => exact ⟨_, _, rfl, importDescr_length _ _ _ _⟩

/-- A table that was written is shown. -/
theorem Tables.tbl {p' q : Image} {i va : Nat} {m : Bytes} {s : Sec} (hw : Window q va m s) (hv : ValidTable q)
    (hh : q.hdrData = p'.hdrData) (hal : q.nt.secAlign = p'.nt.secAlign) (ho : ∀ j, j ≠ i → q.secs[j]? = p'.secs[j]?) {j : Nat} {k : Dest} {pos a n : Nat} {vs : List Nat}
    (ht : Tables p' m j k pos a (encVals q.kind.ptr vs ++ leBytes q.kind.ptr 0)) (hne : k ≠ .none) (hr : k = .old → TabRoom p' i j a n)
    (ha : k = .new → a = va + pos) (hvs : ∀ v ∈ vs, v ≠ 0 ∧ v < 256 ^ q.kind.ptr) : Tbl q a vs := by
  cases k with
  | none => exact absurd rfl hne
  | new => rw [ha rfl]; exact hw.tbl vs pos (ht.raw rfl) hvs
  | old =>
    obtain ⟨h0, t, h1, h2, h3, h4, h5⟩ := hr rfl
    obtain ⟨t', g1, g2, g3⟩ := ht.tab rfl
    rw [h1] at g1
    cases g1
    have hwin := window_of_valid (i := j) hv (s := t) (by rw [ho j h0]; exact h1) (by rw [hh]; exact h2) (by rw [hal]; exact h5)
    have := hwin.tbl vs (a - t.va) (by unfold Sec.memory; exact g3.more _) hvs
    rwa [show t.va + (a - t.va) = a by omega] at this

theorem allB_looked {c : ImportCfg} {l : ImportLib} (hw : l.Written c) (hf : c.fill = true → c.buildOrig = true) :
    allB c l = decide (l.Looked c) := by
  unfold allB
  rw [decide_eq_decide]
  unfold ImportLib.Looked ImportLib.NewLook ImportLib.Relooked ImportLib.Written at *
  by_cases hk : l.Kept c.save <;> by_cases ho : l.rvaOrig = 0 <;> cases hb : c.buildOrig <;> cases hfl : c.fill <;> cases hr : c.rewrite <;>
    simp_all

theorem allOft_looked {c : ImportCfg} {l : ImportLib} {va po : Nat} (h0 : 0 < va) (h : l.Looked c) : allOft c va po l ≠ 0 := by
  unfold ImportLib.Looked at h
  unfold allOft
  rw [if_pos h.1]
  split
  · next hk =>
    split
    · next ho =>
      rcases h.2 with h | h | h
      · exact absurd hk h
      · exact absurd ho h
      · rw [if_pos h]; omega
    · next ho => exact ho
  · omega

theorem allOft_not {c : ImportCfg} {l : ImportLib} {va po : Nat} (h : ¬ l.Looked c) : allOft c va po l = 0 := by
  unfold ImportLib.Looked at h
  unfold allOft
  split
  · next hb =>
    split
    · next hk =>
      split
      · next ho =>
        split
        · next hf => exact absurd ⟨hb, Or.inr (Or.inr hf)⟩ h
        · rfl
      · next ho => exact absurd ⟨hb, Or.inr (Or.inl ho)⟩ h
    · next hk => exact absurd ⟨hb, Or.inl hk⟩ h
  · rfl

/-- The lookup table of a written library. -/
theorem allO_looked {c : ImportCfg} {l : ImportLib} {va po : Nat} (hw : l.Written c ∨ l.Filled c) (h : l.Looked c) :
    allO c l ≠ .none ∧ (allO c l = .new → allOft c va po l = va + po) := by
  unfold allO allOft
  unfold ImportLib.Looked ImportLib.NewLook ImportLib.Relooked ImportLib.Written ImportLib.Filled at *
  by_cases hk : l.Kept c.save <;> by_cases ho : l.rvaOrig = 0 <;> by_cases hb : c.buildOrig = true <;> by_cases hfl : c.fill = true <;>
    by_cases hr : c.rewrite = true <;> simp_all

theorem allI_written {c : ImportCfg} {l : ImportLib} {va pi : Nat} (hw : l.Written c) :
    allI c l ≠ .none ∧ (allI c l = .new → allFt c va pi l = va + pi) := by
  unfold allI allFt
  unfold ImportLib.Written at hw
  by_cases hk : l.Kept c.save <;> cases hr : c.rewrite <;> simp_all

theorem importLoop_all {p p' q : Image} {i : Nat} {va : Nat} {m : Bytes} {s : Sec} (hw : Window q va m s) (h0 : 0 < va) {c : ImportCfg}
    (hv : ValidTable q) (hk : q.kind = p.kind) (hh : q.hdrData = p'.hdrData) (hal : q.nt.secAlign = p'.nt.secAlign) (hvp : ValidTable p')
    (ho : ∀ j, j ≠ i → q.secs[j]? = p'.secs[j]?)
    (hwi : c.rewrite = false → Within { p with secs := p.secs.eraseIdx i } q) :
    ∀ (ls : List ImportLib) (ps pi po pd : Nat) (d : Bytes), At m ps (libStrs ls) → At m pd (allDescs c q.kind.ptr va ps pi po ls) →
      LibsDone c q.kind.ptr va i p' m ps pi po ls → At m pd d → d.length = 20 →
      (∀ l ∈ ls, l.AllOk p i c) → (q.kind.ptr = 4 → va + ps + (libStrs ls).length ≤ 2 ^ 31) → ps + (libStrs ls).length + 1 ≤ m.length →
      pi ≤ m.length → po ≤ m.length → pi + tabI c q.kind.ptr ls ≤ m.length → po + tabO c q.kind.ptr ls ≤ m.length →
      q.importLoop (va + pd) d = .ok (readAll c q.kind.ptr va ps pi po ls) := by
  intro ls
  have hp := q.kind.ptr_cases
  have hfin := hw.fin
  induction ls with
  | nil =>
    intro ps pi po pd d _ h2 _ h5 h6 _ _ _ _ _ _ _
    have hd : d = zeros 20 := by
      have a := h5.2
      have b := h2.2
      simp only [allDescs, zeros_length] at b
      rw [h6] at a
      rw [← a, b]
    rw [Image.importLoop, if_pos (by rw [hd]; exact rd_zero20)]
    rfl
  | cons l ls ih =>
    intro ps pi po pd d h1 h2 h3 h5 h6 h7 h8 h9 h10 h11 h12 h13
    simp only [libStrs, allDescs, tabI, tabO, List.length_append] at h1 h2 h8 h9 h12 h13
    have hl := h7 l List.mem_cons_self
    obtain ⟨⟨j1, R1, T1⟩, ⟨j2, R2, T2⟩, h3'⟩ := h3
    have hd : d = importDescr (allOft c va po l) l.stamp (va + ps) (allFt c va pi l) := by
      have a := h5.2
      have b := h2.left.2
      rw [importDescr_length] at b
      rw [h6] at a
      rw [← a, b]
    have l1 := h1.1
    have l2 := h2.1
    simp only [List.length_append, importDescr_length, allDescs_length] at l1 l2
    have lls := libStr_length l
    have hkept : ¬ l.Written c → l.Kept c.save ∧ c.rewrite = false := by
      intro hc
      unfold ImportLib.Written at hc
      refine ⟨Decidable.byContradiction (fun h => hc (Or.inl h)), ?_⟩
      cases hr : c.rewrite with
      | false => rfl
      | true => exact absurd (Or.inr hr) hc
    have hft : allFt c va pi l < 2 ^ 32 := by
      by_cases hkk : l.Kept c.save
      · by_cases hwr : l.Written c
        · have hold : allI c l = .old := allI_old.mpr ⟨hkk, by
            unfold ImportLib.Written at hwr
            rcases hwr with h | h
            · exact absurd hkk h
            · exact h⟩
          have := (R1 hold).ptr32 hvp
          omega
        · unfold allFt; rw [if_pos hkk]; exact (hl.kept hwr).1
      · unfold allFt; rw [if_neg hkk]; omega
    have hoft : allOft c va po l < 2 ^ 32 := by
      by_cases hr : l.Relooked c
      · have := (R2 (allO_old.mpr hr)).ptr32 hvp
        omega
      · unfold allOft
        split
        · next hb =>
          split
          · next hkk =>
            split
            · split <;> omega
            · next hro =>
              refine (hl.kept (fun hwr => hr ⟨hkk, ?_, hb, hro⟩)).2.1
              rcases hwr with h | h
              · exact absurd hkk h
              · exact h
          · omega
        · omega
    obtain ⟨r1, r2, r3, r4⟩ := rd_importDescr hoft hl.stamp (c := va + ps) (by omega) hft
    rw [← hd] at r1 r2 r3 r4
    have ha := h1.left
    unfold libStr at ha
    obtain ⟨x, y, hxy, hx⟩ := allDescs_split c q.kind.ptr va (ps + (libStr l).length) (pi + (allI c l).raw (q.kind.ptr * (l.funcs.length + 1)))
      (po + (allO c l).raw (q.kind.ptr * (l.funcs.length + 1))) ls
    have hnext := h2.right (n := pd + 20) (by rw [importDescr_length])
    have hxat : At m (pd + 20) x := by rw [hxy] at hnext; exact hnext.left
    have hstr : At m (ps + (l.name.length + 1)) (fnStrs l.funcs) := ha.right (by simp)
    have hlow : q.kind.ptr = 4 → va + (ps + (l.name.length + 1)) + (fnStrs l.funcs).length ≤ 2 ^ 31 := fun h => by have := h8 h; omega
    unfold allIat at T1
    unfold allOrig at T2
    rw [iatBytes_vals] at T1
    rw [lookBytes_vals] at T2
    have htab : q.importTables (allFt c va pi l) (allOft c va po l) = .ok (allFns c q.kind.ptr va ps l) := by
      unfold allFns
      by_cases hwr : l.Written c
      · rw [if_pos hwr]
        have hsh := hl.shape (Or.inl hwr)
        obtain ⟨i1, i2⟩ := allI_written (va := va) (pi := pi) hwr
        have hlv := lookVals_ok (ptr := q.kind.ptr) hp h0 hsh (ps := ps + (l.name.length + 1)) (by omega)
        have hfo := found_of hw (allB c l) hsh hstr hlow
        have hbl := allB_looked hwr (hl.fill hwr)
        by_cases hlk : l.Looked c
        · rw [decide_eq_true hlk] at hbl
          rw [hbl] at T1 hfo ⊢
          rw [readFns_orig] at T1 hfo ⊢
          have hia := hl.iat hwr hlk
          rw [← hk] at hia
          obtain ⟨o1, o2⟩ := allO_looked (va := va) (po := po) (Or.inl hwr) hlk
          refine importTables_two hfo (T1.tbl hw hv hh hal ho i1 R1 i2 (fun v hv' => ?_)) (T2.tbl hw hv hh hal ho o1 R2 o2 hlv) (allOft_looked h0 hlk)
          rw [List.mem_map] at hv'
          obtain ⟨f, hf, rfl⟩ := hv'
          exact hia f hf
        · rw [decide_eq_false hlk] at hbl
          rw [hbl] at T1 hfo ⊢
          rw [allOft_not hlk]
          rw [← readFns_look] at hfo hlv
          exact importTables_one hfo (T1.tbl hw hv hh hal ho i1 R1 i2 hlv)
      · rw [if_neg hwr]
        obtain ⟨kk1, kk2⟩ := hkept hwr
        obtain ⟨t1, t2, t3⟩ := hl.kept hwr
        have hw2 := hwi kk2
        have hft' : allFt c va pi l = l.rvaIat := by unfold allFt; rw [if_pos kk1]
        by_cases hfl : l.Filled c
        · have hsh := hl.shape (Or.inr hfl)
          have hlv := lookVals_ok (ptr := q.kind.ptr) hp h0 hsh (ps := ps + (l.name.length + 1)) (by omega)
          have hfo := found_of hw true hsh hstr hlow
          rw [readFns_orig] at hfo
          have hlk : l.Looked c := ⟨hfl.2.1, Or.inr (Or.inr hfl.2.2.1)⟩
          obtain ⟨o1, o2⟩ := allO_looked (va := va) (po := po) (Or.inr hfl) hlk
          rw [hfl.2.2.2] at t3
          have t3' : ({ p with secs := p.secs.eraseIdx i } : Image).importTables l.rvaIat 0 = .ok l.funcs := by
            split at t3 <;> exact t3
          rw [hft']
          exact importTables_two hfo ((tbl_of_importTables t1 t3').within hw2) (T2.tbl hw hv hh hal ho o1 R2 o2 hlv) (allOft_looked h0 hlk)
        · have : allOft c va po l = if c.buildOrig then l.rvaOrig else 0 := by
            unfold allOft
            rw [if_pos kk1]
            split
            · next hb =>
              split
              · next hro =>
                rw [if_neg (fun hf => hfl ⟨kk1, hb, hf, hro⟩), hro]
              · rfl
            · rfl
          rw [hft', this]
          exact hw2.importTables t3
    rw [Image.importLoop, r3, if_neg (by omega), hw.strAt ha.left (by omega) hl.name, ok_bind, r1, r4, htab, ok_bind,
      dif_pos (by unfold isSumSafe; rw [decide_eq_true_eq]; omega), Nat.add_assoc, hw.readT_at true hxat (by omega) hx, ok_bind,
      ih (ps + (libStr l).length) (pi + (allI c l).raw (q.kind.ptr * (l.funcs.length + 1)))
        (po + (allO c l).raw (q.kind.ptr * (l.funcs.length + 1))) (pd + 20) x
        (h1.right rfl) hnext h3' hxat hx (fun g hg => h7 g (List.mem_cons_of_mem _ hg))
        (fun h => by have := h8 h; omega) (by omega) (by omega) (by omega) (by omega) (by omega), ok_bind, r2]
    rfl

end PE
