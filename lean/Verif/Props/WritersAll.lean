/-
C94: no call that fits runs into undefined behaviour, whatever was called before.
-/
import Verif.Spec.Fits
import Verif.Props.WritersFile
import Verif.Props.Rebase
import Verif.Props.History
import Verif.Props.Failing

namespace PE

theorem run_noUB {α : Type} {m : IM α} {p : Image} (h : NoUB (m.result p)) (u : UB) : (m p).1 ≠ ubE u :=
  fun hu => h u (result_error_iff.mpr hu)

theorem NoUB.unit {x : Res Image} (h : NoUB x) : NoUB (x >>= fun q => .ok (q, ())) := NoUB.bind h fun _ _ => NoUB.ok _

theorem drop_noUB {α : Type} {m : IM α} {p : Image} (h : NoUB (m.result p)) (u : UB) : (m.drop p).1 ≠ ubE u := by
  intro hu
  refine run_noUB h u ?_
  change (IM.andThen m _ p).1 = _ at hu
  unfold IM.andThen at hu
  revert hu
  rcases hm : m p with ⟨e | a, q⟩
  · exact fun h => by cases h; rfl
  · exact fun h => by cases h

theorem setDir_noUB {f : NtHdr → Res NtHdr} {p : Image} (h : NoUB (f p.nt)) (u : UB) : (setDirM f p).1 ≠ ubE u := by
  refine run_noUB ?_ u
  rw [setDirM_result]
  exact NoUB.bind h fun _ _ => NoUB.ok _

theorem setFileAlignment_noUB (p : Image) (a : Nat) : NoUB (p.setFileAlignment a) := by
  unfold Image.setFileAlignment
  exact NoUB.bind (NoUB.throwIf _ _) fun _ _ => NoUB.bind (NoUB.throwIf _ _) fun _ _ => NoUB.bind (NoUB.throwIf _ _) fun _ _ => NoUB.ok _

theorem prepare_noUB (fa sa : Nat) (s : Sec) : NoUB (prepareSection fa sa s) := by
  unfold prepareSection
  refine NoUB.bind (NoUB.throwIf _ _) fun _ _ => ?_
  split <;> exact NoUB.ok _

theorem setVirtualSize_noUB (p : Image) (i v : Nat) : NoUB (p.setSectionVirtualSize i v) := by
  unfold Image.setSectionVirtualSize
  split
  · exact NoUB.throwE _
  · split
    · exact NoUB.throwE _
    · split
      · split
        · exact NoUB.throwE _
        · exact NoUB.ok _
      · exact NoUB.ok _

theorem recalculate_noUB (p : Image) (i : Nat) (b : Bool) (h : i < p.secs.length) : NoUB (p.recalculateSectionSizes i b) := by
  unfold Image.recalculateSectionSizes
  rw [List.getElem?_eq_getElem h]
  refine NoUB.bind (prepare_noUB _ _ _) fun s _ => ?_
  dsimp only
  generalize (if b = true ∧ i + 1 ≠ p.secs.length then _ else s) = t
  split
  · exact setVirtualSize_noUB _ _ _
  · exact NoUB.ok _

theorem realignSection_noUB (p : Image) (i : Nat) : NoUB (p.realignSection i) := by
  unfold Image.realignSection
  split
  · exact NoUB.throwE _
  · split <;> exact NoUB.ok _

theorem realignFrom_noUB : ∀ (n i : Nat) (p : Image), NoUB (p.realignFrom i n)
  | 0, _, _ => NoUB.ok _
  | n + 1, i, p => NoUB.bind (realignSection_noUB p i) fun _ _ => realignFrom_noUB n _ _

theorem expandSection_noUB (p : Image) (i rva size : Nat) (e : ExpandType) : NoUB (p.expandSection i rva size e) := by
  unfold Image.expandSection
  split
  · exact NoUB.throwE _
  · next s hs =>
    have hi := (List.getElem?_eq_some_iff.mp hs).1
    split
    · exact NoUB.throwE _
    · cases e <;> refine NoUB.bind (dataLenSec_noUB _ _ _ _) fun len _ => ?_ <;> split
      · refine NoUB.bind (recalculate_noUB _ _ _ ?_) fun _ _ => NoUB.ok _
        show i < (p.secs.set _ _).length
        rw [List.length_set]
        exact hi
      · exact NoUB.ok _
      · exact NoUB.bind (setVirtualSize_noUB _ _ _) fun _ _ => NoUB.ok _
      · exact NoUB.ok _

theorem addSection_noUB (p : Image) (s : Sec) (b : Bool) : NoUB (p.addSection s b) := by
  unfold Image.addSection
  exact NoUB.bind (NoUB.throwIf _ _) fun _ _ => NoUB.bind (prepare_noUB _ _ _) fun _ _ => NoUB.ok _

theorem poke_noUB {p : Image} {rva : Nat} {x : Bytes} {hdrs : Bool} (h : PokeRoom p rva x.length hdrs) (u : UB) :
    ((Call.poke rva x hdrs).run p).1 ≠ ubE u := by
  have key : NoUB (p.mutPtrFromRva rva hdrs >>= fun l => p.writeLoc l x) := by
    unfold Image.mutPtrFromRva
    unfold PokeRoom at h
    split
    · next hh =>
      rw [if_pos hh] at h
      obtain ⟨d, e, -⟩ := writeAt_fit h
      rw [ok_bind]
      unfold Image.writeLoc
      dsimp only
      rw [e]
      exact NoUB.ok _
    · next hh =>
      rw [if_neg hh] at h
      cases hi : p.secIdxFromRva rva with
      | error e =>
        unfold Image.secIdxFromRva at hi
        split at hi
        · cases hi
        · cases hi; exact NoUB.throwE _
      | ok j =>
        obtain ⟨s, hj, hc, hf⟩ := idx_first hi
        have hfind : p.secs.find? (fun s => s.containsRva p.nt.secAlign rva) = some s := by
          rw [List.find?_eq_some_iff_getElem]
          obtain ⟨hl, e⟩ := List.getElem?_eq_some_iff.mp hj
          refine ⟨hc, j, hl, e, fun k hk => ?_⟩
          have := hf k _ hk (List.getElem?_eq_getElem (by omega))
          rw [this]; rfl
        have hr := h s hfind
        rw [ok_bind, hj]
        dsimp only
        split
        · exact NoUB.throwE _
        · rw [if_neg (by omega), ok_bind]
          obtain ⟨d, e, -⟩ := writeAt_fit hr
          unfold Image.writeLoc
          dsimp only
          rw [hj]
          dsimp only
          rw [e]
          exact NoUB.ok _
  refine run_noUB ?_ u
  show NoUB ((IM.image >>= fun p => IM.lift (p.mutPtrFromRva rva hdrs) >>= fun l => writeLocM l x).result p)
  rw [result_bind, result_image, ok_bind, result_bind, result_lift]
  dsimp only
  rw [bind_assoc]
  refine NoUB.bind (fun v hv => key v (by rw [hv]; rfl)) fun l hl => ?_
  rw [ok_bind, writeLocM_result]
  refine NoUB.unit fun v hv => key v ?_
  rw [hl, ok_bind]
  exact hv

/-- C94: a call that fits an image with good headers does not run into undefined behaviour: it returns or throws. -/
theorem C94_safe_partial {p : Image} (hp : GoodHeaders p) (c : Call) (hc : c.Fits p) (u : UB) : (c.run p).1 ≠ ubE u := by
  have hs := hp.dirs.slots
  have hn := hp.dirs.count
  obtain ⟨e1, e2, e3, e4, e5, e6, e7⟩ := C85_same_edit p
  obtain ⟨r1, r2, r3, r4, r5, r6, r7, r8, r9⟩ := C85_same_rebuild p
  cases c with
  | setValue a v => exact fun h => by cases h
  | setDirRva id v =>
    refine setDir_noUB ?_ u
    unfold NtHdr.setDirRva
    split
    · exact NoUB.throwE _
    · refine NoUB.bind (dirAt_safe hs (by omega)) fun _ _ => ?_
      unfold NtHdr.dirSet
      rw [if_pos (by omega)]
      exact NoUB.ok _
  | setDirSize id v =>
    refine setDir_noUB ?_ u
    unfold NtHdr.setDirSize
    split
    · exact NoUB.throwE _
    · refine NoUB.bind (dirAt_safe hs (by omega)) fun _ _ => ?_
      unfold NtHdr.dirSet
      rw [if_pos (by omega)]
      exact NoUB.ok _
  | removeDir id =>
    refine setDir_noUB ?_ u
    unfold NtHdr.removeDirectory NtHdr.directoryExists
    split
    · next hge =>
      have hid : id < 16 := by
        rcases hc with h | h
        · exact h
        · rw [sub32_of_le (by omega) (by omega)] at hge
          omega
      refine NoUB.bind (NoUB.bind (dirAt_safe hs hid) fun _ _ => NoUB.ok _) fun b _ => ?_
      split
      · unfold NtHdr.dirSet
        rw [if_pos (by omega), ok_bind]
        split
        · exact NoUB.ok _
        · split <;> exact NoUB.ok _
      · exact NoUB.ok _
    · exact NoUB.ok _
  | stripDirs n b =>
    refine setDir_noUB ?_ u
    obtain ⟨k, e, -⟩ := C13_strip_partial p.nt hp.dirs n b
    rw [e]
    exact NoUB.ok _
  | stub b => exact fun h => by cases h
  | sections f => exact fun h => by cases h
  | poke rva x hdrs => exact poke_noUB hc u
  | addSection s b => exact run_noUB (m := addSectionM s b) (by rw [e7]; exact (addSection_noUB _ _ _).unit) u
  | setVirtualSize i n => exact run_noUB (m := setVirtualSizeM i n) (by rw [e4]; exact (setVirtualSize_noUB _ _ _).unit) u
  | recalculate i b => exact run_noUB (m := recalculateM i b) (by rw [e5 i b hc]; exact (recalculate_noUB _ _ _ hc).unit) u
  | expand i rva size e => exact drop_noUB (m := expandM i rva size e) (by rw [e6]; exact expandSection_noUB _ _ _ _ _) u
  | setFileAlignment a => exact run_noUB (m := setFileAlignmentM a) (by rw [e1]; exact (setFileAlignment_noUB _ _).unit) u
  | realignSection i => exact run_noUB (m := realignSectionM i) (by rw [e2]; exact (realignSection_noUB _ _).unit) u
  | realignFile a =>
    refine run_noUB (m := realignFileM a) (by rw [e3]; exact NoUB.unit (NoUB.bind (setFileAlignment_noUB _ _) fun _ _ => realignFrom_noUB _ _ _)) u
  | rebuildExports info l i off save strip =>
    refine drop_noUB (m := rebuildExportsM info l i off save strip) ?_ u
    rw [r1]
    rcases hc with ⟨rfl, h1, h2⟩ | ⟨lo, hi, h1, h2, h3⟩
    · exact fun u => C94_exports_empty p hs info i off save strip h1 (by omega) u
    · exact fun u => C94_exports p hs info l i off lo hi save strip h1 h2 h3 u
  | rebuildBound l i off save strip => exact drop_noUB (m := rebuildBoundM l i off save strip) (by rw [r2]; exact fun u => C94_bound p hs l i off save strip hc u) u
  | rebuildResources r i off save strip =>
    refine drop_noUB (m := rebuildResourcesM r i off save strip) ?_ u
    rw [r3]
    intro u
    obtain ⟨h1, h2⟩ := hc
    cases hsec : p.secs[i]? with
    | none =>
      unfold Image.rebuildResources
      rw [hsec]
      exact fun h => by cases h
    | some s =>
      refine C32_in_bounds_partial p i off s r save strip _ _ _ hsec hs ?_ rfl rfl rfl h1 ?_ u
      · have := dataEndOf_ge r.es (ceilTo off 4 + ((ceilTo off 4 - off) + (16 + 8 * r.es.length + tablesOf r.es) + namesIn r.es))
        have h3 := ceilTo_ge (x := off) (a := 4) (by omega)
        unfold resourcesEnd at h1
        omega
      · rcases h2 with h | h | h
        · exact .inl h
        · exact .inr (.inl h)
        · exact .inr (.inr (h s hsec))
  | rebuildRelocations l i off save strip =>
    exact drop_noUB (m := rebuildRelocationsM l i off save strip) (by rw [r4]; exact fun u => C94_relocations p hs hc.1 l i off save strip hc.2 u) u
  | rebuildConfig c i off wse wlock save strip =>
    exact drop_noUB (m := rebuildConfigM c i off wse wlock save strip) (by rw [r5]; exact fun u => C94_config p hs c i off wse wlock save strip hc u) u
  | rebuildTls t i off wcb wdata e save strip =>
    exact drop_noUB (m := rebuildTlsM t i off wcb wdata e save strip) (by rw [r6]; exact fun u => C94_tls p hs t i off wcb wdata e save strip hc.1 hc.2.1 hc.2.2 u) u
  | rebuildImports ls i c off save zeroIat strip =>
    exact drop_noUB (m := rebuildImportsM ls i c off save zeroIat strip) (by rw [r7]; exact fun u => C94_imports p hs ls i c off save zeroIat strip hc u) u
  | rebase tables b => exact run_noUB (m := rebaseM tables b) (by rw [r8]; exact NoUB.unit fun u => C26_safe_partial p hc tables b u) u
  | rebuildPe a b c => exact drop_noUB (m := rebuildPeM a b c) (by rw [r9]; exact fun u => C94_save p hs hn hc.1 hc.2 a b c u) u

/-- C94: a program all of whose calls fit, on an image loaded from any file or created, has one of the histories of C91: none of
    its calls ran into undefined behaviour, and the next call that fits does not either. -/
theorem C94_history_partial {p q : Image} (ho : Origin p) (hq : FitHistory p q) :
    History Call.Legal p q ∧ ∀ c : Call, c.Fits q → ∀ u, (c.run q).1 ≠ ubE u := by
  have key : History Call.Legal p q := by
    induction hq with
    | start => exact .start
    | call c _ hl hf ih => exact .call c ih hl fun u => C94_safe_partial (C91_headers ho ih) c hf u
  exact ⟨key, fun c hc u => C94_safe_partial (C91_headers ho key) c hc u⟩

theorem runCalls_snoc (c : Call) : ∀ (cs : List Call) (p : Image), runCalls (cs ++ [c]) p = (c.run (runCalls cs p)).2
  | [], _ => rfl
  | d :: cs, p => runCalls_snoc c cs (d.run p).2

theorem fit_chain (cs : List Call) (p : Image) (h : ∀ (k : Nat) (c : Call), cs[k]? = some c → c.Legal ∧ c.Fits (runCalls (cs.take k) p)) :
    FitHistory p (runCalls cs p) := by
  have key : ∀ k : Nat, k ≤ cs.length → FitHistory p (runCalls (cs.take k) p) := by
    intro k
    induction k with
    | zero => exact fun _ => .start
    | succ k ih =>
      intro hk
      obtain ⟨h1, h2⟩ := h k _ (List.getElem?_eq_getElem (by omega))
      rw [List.take_succ_eq_append_getElem (show k < cs.length by omega), runCalls_snoc]
      exact .call _ (ih (by omega)) h1 h2
  have := key cs.length (Nat.le_refl _)
  rwa [List.take_length] at this

/-- A program: two sections, directories, a write through a pointer, another image base, and the file is saved. -/
def fitCalls : List Call :=
  [.addSection { name := [46, 97] ++ zeros 6, data := List.replicate 16 7 } true,
   .addSection { name := [46, 98] ++ zeros 6, data := List.replicate 64 1 } true,
   .rebuildImports [{ name := [75], funcs := [{ name := [65, 66] }, { ordinal := 3 }] }] 1 {} 0 true true false,
   .rebuildExports { name := [65] } [{ ordinal := 1, rva := 0x1000, name := [66] }] 1 0x60 true false,
   .rebuildBound [{ name := [75], stamp := 5, refs := [] }] 1 0xa0 true false,
   .rebuildResources { es := [.data (.id 1) 0 [1, 2, 3, 4]] } 1 0xc0 true false,
   .rebuildRelocations [{ rva := 0x1000, relocs := [{ rva := 4, type := 3 }] }] 1 0x100 true false,
   .rebuildTls { start := 0x1004, stop := 0x1008, raw := [1, 2, 3, 4], index := 0x1000, callbacksRva := 0x2130, callbacks := [0x1000] } 1 0x110
     true true .raw true false,
   .poke 0x1008 [1, 2, 3, 4] true,
   .rebase [{ rva := 0x1000, relocs := [{ rva := 4, type := 3 }] }] 0x10000000,
   .realignFile 512,
   .rebuildPe true true true]

/-- The image after the first `n` calls of the program. -/
def fitImage (n : Nat) : Image := runCalls (fitCalls.take n) (createImage .pe32 0x1000 true 2)

theorem fitImage_all : (List.range 12).all (fun k => decide ((fitImage k).kind = .pe32) &&
    (decide ((fitImage k).nt.fileAlign = 512) && (fitImage k).hdrData.isEmpty)) = true := by decide +kernel

theorem fitImage_kind (k : Nat) (hk : k < 12) : (fitImage k).kind = .pe32 ∧ (fitImage k).nt.fileAlign = 512 ∧ (fitImage k).hdrData = [] := by
  have h := List.all_eq_true.mp fitImage_all k (List.mem_range.mpr hk)
  rw [Bool.and_eq_true, Bool.and_eq_true] at h
  exact ⟨of_decide_eq_true h.1, of_decide_eq_true h.2.1, List.isEmpty_iff.mp h.2.2⟩

attribute [local irreducible] fitImage

theorem fit_saved : (∀ s ∈ (fitImage 11).secs, s.rawSize ≤ s.data.length + 1) ∧
    ∀ d, (fitImage 11).nt.dirs[dirBoundImport]? = some d → d.1 ≠ 0 → d.2 ≠ 0 := by
  have h1 : (fitImage 11).secs.all (fun s => decide (s.rawSize ≤ s.data.length + 1)) = true := by decide +kernel
  have h2 : (fitImage 11).nt.dirs[dirBoundImport]? = some (8352, 18) := by decide +kernel
  refine ⟨fun s hs => of_decide_eq_true (List.all_eq_true.mp h1 s hs), fun d hd => ?_⟩
  rw [h2] at hd
  cases hd
  exact fun _ => by decide

theorem fit_callbacks : CallbackRoom (fitImage 7) 0x2130 8 := by
  have hl : (fitImage 7).secs.length = 2 := by decide +kernel
  have hm : (fitImage 7).secs.map (fun s => (s.va, s.containsRva (fitImage 7).nt.secAlign 0x2130)) = [(0x1000, false), (0x2000, true)] := by
    decide +kernel
  have hg : ∀ (j : Nat) (s : Sec), (fitImage 7).secs[j]? = some s →
      [((0x1000 : Nat), false), (0x2000, true)][j]? = some (s.va, s.containsRva (fitImage 7).nt.secAlign 0x2130) := by
    intro j s hs
    rw [← hm, List.getElem?_map, hs]
    rfl
  refine ⟨by decide, fun h => ?_, fun j s hs hj hc => ?_, fun j s hs hj => ?_⟩
  · rw [(fitImage_kind 7 (by decide)).2.2] at h
    cases h
  · have := hg j s hs
    rw [hc] at this
    have hj2 : j < 2 := by rw [← hl]; exact (List.getElem?_eq_some_iff.mp hs).1
    rw [hl] at hj
    obtain rfl : j = 0 := by omega
    have h2 : false = true := congrArg Prod.snd (Option.some.inj this)
    cases h2
  · rw [hl] at hj
    obtain rfl : j = 1 := by omega
    have := hg 1 s hs
    have hv : s.va = 0x2000 := by
      have h2 := congrArg Prod.fst (Option.some.inj this)
      exact h2.symm
    rw [hv]
    decide

theorem fit_poke : PokeRoom (fitImage 8) 0x1008 4 true := by
  have h : ((fitImage 8).secs.find? fun s => s.containsRva (fitImage 8).nt.secAlign 0x1008).all (fun s => decide (0x1008 - s.va + 4 ≤ s.data.length)) = true := by
    decide +kernel
  unfold PokeRoom
  rw [(fitImage_kind 8 (by decide)).2.2, if_neg (by rintro ⟨-, h⟩; cases h)]
  intro s hs
  rw [hs] at h
  exact of_decide_eq_true h

theorem fitCalls_fit (k : Nat) (c : Call) (h : fitCalls[k]? = some c) : c.Legal ∧ c.Fits (fitImage k) := by
  have hk : k < 12 := (List.getElem?_eq_some_iff.mp h).1
  obtain ⟨f1, f2, f3⟩ := fitImage_kind k hk
  generalize hq : fitImage k = q at f1 f2 f3 ⊢
  have hc : c = (fitCalls[k]?).getD (.stub []) := by rw [h]; rfl
  subst hc
  clear h
  match k, hk with
  | 0, _ => exact ⟨trivial, trivial⟩
  | 1, _ => exact ⟨trivial, trivial⟩
  | 2, _ => exact ⟨trivial, by show 0 + importSpace q.kind _ < _; rw [f1]; decide +kernel⟩
  | 3, _ =>
    refine ⟨trivial, .inr ⟨1, 1, ⟨⟨_, List.mem_singleton.mpr rfl, rfl⟩, ⟨_, List.mem_singleton.mpr rfl, rfl⟩, ?_⟩, by decide, by decide +kernel⟩⟩
    intro g hg
    rw [List.mem_singleton.mp hg]
    exact ⟨Nat.le_refl _, Nat.le_refl _⟩
  | 4, _ => exact ⟨trivial, show 0xa0 + 3 + boundSpace [{ name := [75], stamp := 5, refs := [] }] < 4294967296 by decide +kernel⟩
  | 5, _ =>
    exact ⟨trivial, show resourcesEnd { es := [.data (.id 1) 0 [1, 2, 3, 4]] } 0xc0 + 3 < 4294967296 by decide +kernel,
      .inr (.inl ⟨show 4 ∣ [1, 2, 3, 4].length from ⟨1, rfl⟩, trivial⟩)⟩
  | 6, _ => exact ⟨trivial, by show Pow2 q.nt.fileAlign; rw [f2]; exact pow2_512, by show 0x100 + 6 + relocBytes _ + q.nt.fileAlign ≤ _; rw [f2]; decide +kernel⟩
  | 7, _ =>
    refine ⟨trivial, by show 0x110 + (q.kind.ptr - 1) + q.kind.sizeofTls < _; rw [f1]; decide, fun _ _ => show 0x1008 ≤ 0x1004 + 4 + 1 by decide, fun _ _ => ?_⟩
    show CallbackRoom q 0x2130 (q.kind.ptr * 2)
    rw [f1, ← hq]
    exact fit_callbacks
  | 8, _ => exact ⟨trivial, hq ▸ fit_poke⟩
  | 9, _ =>
    refine ⟨trivial, fun s _ => ?_⟩
    rw [f3]
    exact Nat.zero_le _
  | 10, _ => exact ⟨trivial, trivial⟩
  | 11, _ => exact ⟨trivial, hq ▸ fit_saved⟩

/-- The program above fits and all its calls return; the image has the six directories. -/
example : ∃ p q, Origin p ∧ FitHistory p q ∧ q.secs.length = 2 ∧ (q.nt.dirs.filter fun d => d.1 != 0).length = 6 := by
  have key : FitHistory (createImage .pe32 0x1000 true 2) (runCalls fitCalls (createImage .pe32 0x1000 true 2)) := by
    refine fit_chain fitCalls _ fun k c h => ?_
    have h' := fitCalls_fit k c h
    unfold fitImage at h'
    exact h'
  exact ⟨_, _, .created _ _ _ _ rfl, key, by decide +kernel, by decide +kernel⟩

/-- C94 (what the conditions exclude): on images that a program creates and adds one or two small sections to, every one of these calls
    runs into undefined behaviour: saving at once, a pointer that is written through behind the raw data, an empty list of
    exports with a base of 2, resources that are not sorted, TLS data shorter than their address range, TLS callbacks in a section that
    cannot grow; and removing directory 16 from an image whose number of directories was set to 0. -/
theorem C94_limits :
    let p := createImage .pe32 0x1000 true 2
    let a := runCalls [.addSection { name := zeros 8, data := List.replicate 16 7 } true] p
    let b := runCalls [.addSection { name := zeros 8, data := List.replicate 64 7 } true] a
    ((Call.rebuildPe true true true).run a).1 = ubE .oobRead ∧
    ((Call.poke 0x100c [1, 2, 3, 4, 5] true).run a).1 = ubE .oobWrite ∧
    ((Call.poke 0x1100 [1] true).run a).1 = ubE .oobIndex ∧
    ((Call.rebuildExports { name := [65], base := 2 } [] 0 0 true false).run a).1 = ubE .oobWrite ∧
    ((Call.rebuildResources { es := [.data (.id 2) 0 [1, 2, 3, 4], .data (.id 1) 0 [5]] } 0 0 true false).run a).1 = ubE .oobWrite ∧
    ((Call.rebuildTls { start := 0x1002, stop := 0x1006, index := 0x1000, raw := [1] } 1 0 true true .raw true true).run b).1 = ubE .oobRead ∧
    ((Call.rebuildTls { index := 0x1000, callbacksRva := 0x100c, callbacks := [0x1000] } 1 0 true true .raw true true).run b).1 = ubE .oobWrite ∧
    ((Call.removeDir 16).run (runCalls [.setValue .numRva 0] p)).1 = ubE .oobIndex := by
  refine ⟨isUb_eq ?_, isUb_eq ?_, isUb_eq ?_, isUb_eq ?_, isUb_eq ?_, isUb_eq ?_, isUb_eq ?_, isUb_eq ?_⟩ <;> decide +kernel

/-- The same for a load configuration with both tables (the functions that write the other directories are in the program above), and for an empty list of exports. -/
example : demoImage.nt.dirs.length = 16 ∧ 5 + (demoImage.kind.ptr - 1) + configSpace demoImage.kind { handlers := [0x1000], locks := [0x1004, 0x1008] } true true < 4294967296 ∧
    (∃ r, demoImage.rebuildConfig { handlers := [0x1000], locks := [0x1004, 0x1008] } 1 5 true true true false = .ok r) ∧
    (∃ r, demoImage.rebuildExports { name := [65], base := 1 } [] 1 5 true false = .ok r) := by
  obtain ⟨r, h, -⟩ := exists_of_okAnd (x := demoImage.rebuildConfig { handlers := [0x1000], locks := [0x1004, 0x1008] } 1 5 true true true false)
    (f := fun _ => true) (by decide +kernel)
  obtain ⟨r', h', -⟩ := exists_of_okAnd (x := demoImage.rebuildExports { name := [65], base := 1 } [] 1 5 true false)
    (f := fun _ => true) (by decide +kernel)
  exact ⟨rfl, by decide, ⟨r, h⟩, ⟨r', h'⟩⟩

end PE
