/-
C91: reading an image is safe whatever was done to it before, and what no call changes.
-/
import Verif.Lemmas.History
import Verif.Props.Debug
import Verif.Props.DotNet
import Verif.Props.Resources
import Verif.Props.Imports
import Verif.Props.Exports
import Verif.Props.BoundImport
import Verif.Props.LoadConfig
import Verif.Props.Tls
import Verif.Props.Reloc
namespace PE

/-- What the readers need to know about the headers. -/
structure GoodHeaders (p : Image) : Prop where
  hdr : p.hdrData.length < 4294967296
  dirs : p.nt.DirsOk
  rvas : ∀ d ∈ p.nt.dirs, d.1 < 4294967296
  base : p.nt.imageBase < 256 ^ p.kind.ptr

theorem goodHeaders_stable : Stable GoodHeaders where
  secs p l _ hp := ⟨hp.hdr, hp.dirs, hp.rvas, hp.base⟩
  hdr p h hh hp := ⟨by show h.length < _; rw [hh]; exact hp.hdr, hp.dirs, hp.rvas, hp.base⟩
  nt p b h hp := ⟨hp.hdr, ⟨h.same.slots.trans hp.dirs.slots, by show b.numRva ≤ 16; rw [h.num]; exact hp.dirs.count⟩,
    h.rvas hp.rvas, h.base hp.base⟩
  stub p b hp := ⟨hp.hdr, hp.dirs, hp.rvas, hp.base⟩
  count p hp := ⟨hp.hdr, ⟨hp.dirs.slots, hp.dirs.count⟩, hp.rvas, hp.base⟩
  add p s _ hp := ⟨hp.hdr, ⟨hp.dirs.slots, hp.dirs.count⟩, hp.rvas, hp.base⟩

theorem goodHeaders_call (c : Call) (hl : c.Legal) : Inv GoodHeaders c.run := by
  by_cases h1 : ∃ n b, c = .stripDirs n b
  · obtain ⟨n, b, rfl⟩ := h1
    intro p hp
    obtain ⟨k, hk, e⟩ := stripDirs_result n b p
    rw [e]
    exact ⟨hp.hdr, ⟨hp.dirs.slots, Nat.le_trans hk hp.dirs.count⟩, hp.rvas, hp.base⟩
  · by_cases h2 : ∃ v, c = .setValue .numRva v
    · obtain ⟨v, rfl⟩ := h2
      exact fun p hp => ⟨hp.hdr, ⟨hp.dirs.slots, hl⟩, hp.rvas, hp.base⟩
    · by_cases h3 : c.ByHand
      · cases c <;> first
          | exact absurd h3 id
          | skip
        · next a v =>
          cases a <;> first
            | exact absurd h3 id
            | exact fun p hp => ⟨hp.hdr, ⟨hp.dirs.slots, hp.dirs.count⟩, hp.rvas, hp.base⟩
        · exact fun p hp => ⟨hp.hdr, hp.dirs, hp.rvas, hp.base⟩
      · exact inv_call goodHeaders_stable c hl h3 (fun n b h => h1 ⟨n, b, h⟩) (fun v h => h2 ⟨v, h⟩)

theorem history_inv {I : Image → Prop} {P : Call → Prop} (h : ∀ c, P c → Inv I c.run) {p q : Image} (hq : History P p q) (hp : I p) :
    I q := by
  induction hq with
  | start => exact hp
  | call c _ hc _ ih => exact h c hc _ ih

theorem readable_of_good {p : Image} (h : GoodHeaders p) (hb : p.Below4G) : Readable p := ⟨⟨h.hdr, hb⟩, h.dirs, h.rvas, h.base⟩

/-- The image that a program starts with: one loaded from any file, or a new one. -/
inductive Origin (p : Image) : Prop where
  | loaded (k : Kind) (strict fromMem dbg : Bool) (pre : List (Nat × Nat)) (file : Bytes) (hp : pre.length = 16)
      (hr : ∀ d ∈ pre, d.1 < 2 ^ 32) (h : load k strict fromMem dbg pre file = .ok p)
  | created (k : Kind) (secAlign : Nat) (dll : Bool) (subsystem : Nat) (h : p = createImage k secAlign dll subsystem)

theorem createImage_nt (k : Kind) (a : Nat) (d : Bool) (n : Nat) :
    (createImage k a d n).nt.dirs = List.replicate 16 (0, 0) ∧ (createImage k a d n).nt.numRva = 16 ∧
    (createImage k a d n).nt.imageBase = 0x400000 ∧ (createImage k a d n).nt.numSections = 0 := by
  cases k <;> cases d <;> exact ⟨rfl, rfl, rfl, rfl⟩

theorem Origin.good {p : Image} (h : Origin p) : GoodHeaders p := by
  cases h with
  | loaded k strict fromMem dbg pre file hp hr h =>
    have hx := loaded_readable hp hr h
    exact ⟨hx.reads.hdr, hx.dirs, hx.rvas, hx.base⟩
  | created k a d n h =>
    subst h
    obtain ⟨h1, h2, h3, -⟩ := createImage_nt k a d n
    refine ⟨show ([] : Bytes).length < _ by decide, ⟨by rw [h1]; rfl, by omega⟩, fun x hx => ?_, ?_⟩
    · rw [h1] at hx
      obtain rfl := List.eq_of_mem_replicate hx
      decide
    · rw [h3]
      show _ < 256 ^ k.ptr
      cases k <;> decide

/-- C91: after any number of calls, with any results, on an image loaded from any file or created, the headers are still good
    for the readers. -/
theorem C91_headers {p q : Image} (ho : Origin p) (hq : History Call.Legal p q) : GoodHeaders q :=
  history_inv goodHeaders_call hq ho.good

/-- C91: no reader runs into undefined behaviour, whatever was done to the image before, as long as the sections end below
    4 GiB. (For the debug directory and the resources see the next two theorems.) -/
theorem C91_readers_safe {p q : Image} (ho : Origin p) (hq : History Call.Legal p q) (hb : q.Below4G) (u : UB) :
    q.getExports ≠ ubE u ∧ q.getExportList ≠ ubE u ∧ q.getImports ≠ ubE u ∧ (∀ abs, q.getRelocations abs ≠ ubE u) ∧ q.getTls ≠ ubE u ∧
    q.getConfig ≠ ubE u ∧ q.getBound ≠ ubE u ∧ q.getExceptions ≠ ubE u ∧ q.getDotNet ≠ ubE u := by
  have hr := readable_of_good (C91_headers ho hq) hb
  exact ⟨getExports_noUB hr u, getExportList_safe hr u, getImports_safe hr u, fun abs => C24_safe q hr.dirs abs u, getTls_noUB hr u,
    getConfig_noUB hr u, getBound_noUB hr u, getExceptions_noUB hr u, getDotNet_safe hr u⟩

/-- C91: the debug directory of such an image; the one exception is the short record of `C47_short_misc`. -/
theorem C91_debug_partial {p q : Image} (ho : Origin p) (hq : History Call.Legal p q) (hb : q.Below4G) (u : UB)
    (h : q.getDebug = ubE u) :
    u = .oobRead ∧ ∃ rva i r d, q.nt.getDirRva dirDebug = .ok rva ∧ q.DebugRecord rva i r ∧ rd 4 r 12 = 4 ∧
      mapFind (rd 4 r 24) q.debugData = some d ∧ ShortMisc d :=
  C47_safe_partial (readable_of_good (C91_headers ho hq) hb) u h

/-- C91: the resources of such an image, if names of resources lie completely inside of the data (see `C30_name_overread`). -/
theorem C91_resources_partial {p q : Image} (ho : Origin p) (hq : History Call.Legal p q) (hb : q.Below4G)
    (hname : ∀ res off len avail, q.readInt 2 (w32 (res + off)) .virt true = .ok len →
      q.dataLenFrom (w32 (res + off + 2)) (w32 (res + off + 2)) .virt true = .ok avail → len ≤ avail → 2 * len ≤ avail) (u : UB) :
    q.getResources ≠ ubE u :=
  getResources_safe (readable_of_good (C91_headers ho hq) hb) hname u

/-- C91: the images that a program starts with end below 4 GiB. -/
theorem C91_origin_below {p : Image} (ho : Origin p) : p.Below4G := by
  cases ho with
  | loaded k strict fromMem dbg pre file hp hr h => exact (loaded_readable hp hr h).reads.secs
  | created k a d n h => subst h; intro s hs; cases hs

/-! ### What no call changes -/

theorem sameFixed_num (h : NtHdr) (n : Nat) : SameFixed { h with numSections := n } h :=
  ⟨rfl, rfl, rfl, rfl, rfl, rfl, rfl, rfl, rfl, rfl, rfl, rfl, rfl, rfl, rfl, rfl⟩

theorem sameFrame_stable (p : Image) : Stable (fun q => SameFrame q p) where
  secs _ _ _ hp := ⟨hp.kind, hp.dos, hp.lfanew, hp.overlay, hp.debug, hp.hdr, hp.nt⟩
  hdr _ _ hh hp := ⟨hp.kind, hp.dos, hp.lfanew, hp.overlay, hp.debug, hh.trans hp.hdr, hp.nt⟩
  nt _ _ h hp := ⟨hp.kind, hp.dos, hp.lfanew, hp.overlay, hp.debug, hp.hdr, h.same.trans hp.nt⟩
  stub _ _ hp := ⟨hp.kind, hp.dos, hp.lfanew, hp.overlay, hp.debug, hp.hdr, hp.nt⟩
  count _ hp := ⟨hp.kind, hp.dos, hp.lfanew, hp.overlay, hp.debug, hp.hdr, (sameFixed_num _ _).trans hp.nt⟩
  add _ _ _ hp := ⟨hp.kind, hp.dos, hp.lfanew, hp.overlay, hp.debug, hp.hdr, (sameFixed_num _ _).trans hp.nt⟩

theorem sameFrame_call (p : Image) (c : Call) (hl : c.Legal) : Inv (fun q => SameFrame q p) c.run := by
  have key : ∀ (q : Image) (b : NtHdr) (l : List Sec), SameFixed b q.nt → SameFrame q p → SameFrame { q with nt := b, secs := l } p :=
    fun q b l h hp => ⟨hp.kind, hp.dos, hp.lfanew, hp.overlay, hp.debug, hp.hdr, h.trans hp.nt⟩
  by_cases h1 : ∃ n b, c = .stripDirs n b
  · obtain ⟨n, b, rfl⟩ := h1
    intro q hq
    obtain ⟨k, hk, e⟩ := stripDirs_result n b q
    show SameFrame _ p
    rw [e]
    exact key q _ q.secs ⟨rfl, rfl, rfl, rfl, rfl, rfl, rfl, rfl, rfl, rfl, rfl, rfl, rfl, rfl, rfl, rfl⟩ hq
  · by_cases h2 : ∃ v, c = .setValue .numRva v
    · obtain ⟨v, rfl⟩ := h2
      exact fun q hq => key q _ q.secs ⟨rfl, rfl, rfl, rfl, rfl, rfl, rfl, rfl, rfl, rfl, rfl, rfl, rfl, rfl, rfl, rfl⟩ hq
    · by_cases h3 : c.ByHand
      · cases c <;> first
          | exact absurd h3 id
          | skip
        · next a v =>
          cases a <;> first
            | exact absurd h3 id
            | exact fun q hq => key q _ q.secs ⟨rfl, rfl, rfl, rfl, rfl, rfl, rfl, rfl, rfl, rfl, rfl, rfl, rfl, rfl, rfl, rfl⟩ hq
        · next f => exact fun q hq => key q q.nt (f q.secs) (.refl _) hq
      · exact inv_call (sameFrame_stable p) c hl h3 (fun n b h => h1 ⟨n, b, h⟩) (fun v h => h2 ⟨v, h⟩)

theorem SameFrame.refl (p : Image) : SameFrame p p := ⟨rfl, rfl, rfl, rfl, rfl, rfl, .refl _⟩

/-- C91: no call, returning or throwing, changes the kind of the image, the DOS header, the saved debug data, the size of the saved
    headers, the section alignment, the magic numbers and the other values for which the library has no setter. -/
theorem C91_frame {p q : Image} (hq : History Call.Legal p q) : SameFrame q p :=
  history_inv (sameFrame_call p) hq (.refl p)

/-- The sections of `p` are still there at the same positions, and the header counts the sections. -/
structure SectionsKept (p q : Image) : Prop where
  kept : ∀ (i : Nat) (s : Sec), p.secs[i]? = some s → ∃ t, q.secs[i]? = some t ∧ SameSec t s
  more : p.secs.length ≤ q.secs.length
  most : q.secs.length ≤ 96
  count : q.nt.numSections = q.secs.length

theorem sectionsKept_stable (p : Image) : Stable (SectionsKept p) where
  secs q l h hq := by
    refine ⟨fun i s hs => ?_, by show _ ≤ l.length; rw [h.len]; exact hq.more, by show l.length ≤ _; rw [h.len]; exact hq.most,
      by show q.nt.numSections = l.length; rw [h.len]; exact hq.count⟩
    obtain ⟨t, ht, hts⟩ := hq.kept i s hs
    obtain ⟨u, hu, hut⟩ := h.each i t ht
    exact ⟨u, hu, hut.trans hts⟩
  hdr _ _ _ hq := ⟨hq.kept, hq.more, hq.most, hq.count⟩
  nt _ _ h hq := ⟨hq.kept, hq.more, hq.most, h.sections.trans hq.count⟩
  stub _ _ hq := ⟨hq.kept, hq.more, hq.most, hq.count⟩
  count q hq := ⟨hq.kept, hq.more, hq.most, Nat.mod_eq_of_lt (by have := hq.most; omega)⟩
  add q s hl hq := by
    refine ⟨fun i s' hs => ?_, ?_, ?_, ?_⟩
    · obtain ⟨t, ht, hts⟩ := hq.kept i s' hs
      refine ⟨t, ?_, hts⟩
      show (q.secs ++ [s])[i]? = some t
      rw [List.getElem?_append_left (List.getElem?_eq_some_iff.mp ht).1]
      exact ht
    · show _ ≤ (q.secs ++ [s]).length
      have := hq.more
      simp only [List.length_append, List.length_singleton]; omega
    · show (q.secs ++ [s]).length ≤ _
      simp only [List.length_append, List.length_singleton]; omega
    · show w16 (q.secs.length + 1) = (q.secs ++ [s]).length
      simp only [List.length_append, List.length_singleton]
      exact Nat.mod_eq_of_lt (by omega)

theorem Origin.sections {p : Image} (h : Origin p) : p.nt.numSections = p.secs.length ∧ p.secs.length ≤ 96 := by
  cases h with
  | loaded k strict fromMem dbg pre file hp hr h =>
    have := (C15_headers_partial k strict fromMem dbg pre hp file p h).2.2.count
    exact ⟨this.1.symm, this.2⟩
  | created k a d n h =>
    subst h
    exact ⟨(createImage_nt k a d n).2.2.2, by show ([] : List Sec).length ≤ 96; decide⟩

/-- C91: as long as the program does not write the list of sections or their number by hand, every section stays at its position
    with its name, address and flags, no call removes one, there are at most 96, and the header counts them. -/
theorem C91_sections {p q : Image} (ho : Origin p) (hq : History (fun c => c.Legal ∧ ¬ c.ByHand) p q) : SectionsKept p q := by
  refine history_inv (fun c hc => ?_) hq ⟨fun i s h => ⟨s, h, .refl s⟩, Nat.le_refl _, ho.sections.2, ho.sections.1⟩
  by_cases h1 : ∃ n b, c = .stripDirs n b
  · obtain ⟨n, b, rfl⟩ := h1
    intro q hq
    obtain ⟨k, hk, e⟩ := stripDirs_result n b q
    rw [e]
    exact ⟨hq.kept, hq.more, hq.most, hq.count⟩
  · by_cases h2 : ∃ v, c = .setValue .numRva v
    · obtain ⟨v, rfl⟩ := h2
      exact fun q hq => ⟨hq.kept, hq.more, hq.most, hq.count⟩
    · exact inv_call (sectionsKept_stable p) c hc.1 hc.2 (fun n b h => h1 ⟨n, b, h⟩) (fun v h => h2 ⟨v, h⟩)

/-! ### Example and counterexample -/

/-- A program: two sections are added to a new image, relocations are rebuilt, the rebuilding of exports into a section that does
    not exist throws, a flag and the image base are set. -/
def exCalls : List Call :=
  [.addSection { name := [46, 97] ++ zeros 6, data := List.replicate 16 7 } true,
   .addSection { name := [46, 98] ++ zeros 6, data := List.replicate 64 1 } true,
   .rebuildRelocations [{ rva := 0x1000, relocs := [{ rva := 4, type := 3 }] }] 1 0 true false,
   .rebuildExports { name := [65] } [{ ordinal := 1, rva := 0x1000, name := [66] }] 7 0 true false,
   .setValue .chars 0x102, .removeDir 0, .setValue .imageBase 0x10000000]

/-- The image after the calls. -/
def runCalls : List Call → Image → Image
  | [], p => p
  | c :: cs, p => runCalls cs (c.run p).2

/-- No call of the list runs into undefined behaviour. -/
def callsOk : List Call → Image → Bool
  | [], _ => true
  | c :: cs, p => (match (c.run p).1 with | .error (.ub _) => false | _ => true) && callsOk cs (c.run p).2

theorem history_run {P : Call → Prop} {p : Image} : ∀ (cs : List Call) (q : Image), History P p q → (∀ c ∈ cs, P c) → callsOk cs q = true →
    History P p (runCalls cs q)
  | [], q, h, _, _ => h
  | c :: cs, q, h, hP, hk => by
    unfold callsOk at hk
    rw [Bool.and_eq_true] at hk
    refine history_run cs _ (.call c h (hP c List.mem_cons_self) fun u hu => ?_) (fun d hd => hP d (List.mem_cons_of_mem _ hd)) hk.2
    have := hk.1
    rw [hu] at this
    cases this

example : ∃ p q, Origin p ∧ History (fun c => c.Legal ∧ ¬ c.ByHand) p q ∧ q.Below4G ∧ q.secs.length = 2 ∧
    (∃ l, q.getRelocations false = .ok l ∧ l ≠ []) ∧ (runCalls (exCalls.take 3) p).secs.length = 2 ∧
    ((Call.rebuildExports { name := [65] } [{ ordinal := 1, rva := 0x1000, name := [66] }] 7 0 true false).run (runCalls (exCalls.take 3) p)).1 = throwE .sectionIsNotAttached := by
  refine ⟨createImage .pe32 0x1000 true 2, runCalls exCalls (createImage .pe32 0x1000 true 2), .created _ _ _ _ rfl,
    history_run _ _ .start ?_ (by decide +kernel), ?_, by decide +kernel, ?_, by decide +kernel, rfl⟩
  · intro c hc
    simp only [exCalls, List.mem_cons, List.not_mem_nil, or_false] at hc
    rcases hc with rfl | rfl | rfl | rfl | rfl | rfl | rfl <;> exact ⟨trivial, id⟩
  · exact (readsBelow_of (by decide +kernel) (by decide +kernel)).secs
  · obtain ⟨l, hl, hne⟩ := exists_of_okAnd (x := (runCalls exCalls (createImage .pe32 0x1000 true 2)).getRelocations false)
      (f := fun l => decide (l ≠ [])) (by decide +kernel)
    exact ⟨l, hl, of_decide_eq_true hne⟩

/-- C91 (why the number of directories is restricted): a program that sets it to 17 and then reads the 17th directory leaves the
    array. -/
theorem C91_count_above_16 : ∃ p, Origin p ∧ (∀ u, ((Call.setValue .numRva 17).run p).1 ≠ ubE u) ∧
    ((Call.setValue .numRva 17).run p).2.nt.getDirRva 16 = ubE .oobIndex :=
  ⟨createImage .pe32 0x1000 true 2, .created _ _ _ _ rfl, fun u (h : (Except.ok () : Res Unit) = ubE u) => (by cases h), by decide +kernel⟩

end PE
