/-
C79: what opening a file does to the stream.
-/
import Verif.Model.StreamState
import Verif.Props.Factory
namespace PE

def Stream.Good (f : Stream) : Prop := f.eof = false ∧ f.fail = false

/-- The outcome `y` of a computation on streams over the contents `D` is the one that `x` tells; after success the stream is
    good, after failure it is good or the exception is one of `E`. -/
def SimAt {α : Type} (D : Bytes) (st : Bool) (E : List Err) (y : Res α × Stream) (x : Res (α × Stream)) : Prop :=
  y.2.data = D ∧ y.2.strict = st ∧
  match x with
  | .ok (a, g) => y = (.ok a, g) ∧ g.Good
  | .error e => y.1 = .error e ∧ (y.2.Good ∨ ∃ t ∈ E, e = .exn t)

/-- The computation `m` on streams does what the function `r` says, as long as the stream is good. -/
def Sim {α : Type} (D : Bytes) (st : Bool) (E : List Err) (m : SM α) (r : Stream → Res (α × Stream)) : Prop :=
  ∀ f : Stream, f.Good → f.data = D → f.strict = st → SimAt D st E (m f) (r f)

section
variable {α β : Type} {D : Bytes} {st : Bool} {E : List Err}

theorem Sim.congr {m : SM α} {r r' : Stream → Res (α × Stream)} (h : ∀ f, r f = r' f) (hs : Sim D st E m r') : Sim D st E m r := by
  rw [funext h]; exact hs

theorem sim_pure (a : α) : Sim D st E (pure a) (fun f => .ok (a, f)) :=
  fun _ hf hd hst => ⟨hd, hst, rfl, hf⟩

theorem andThen_ok {m : SM α} {g : α → SM β} {f f' : Stream} {a : α} (h : m f = (.ok a, f')) : (m >>= g) f = g a f' := by
  show SM.andThen m g f = _
  unfold SM.andThen
  rw [h]

theorem andThen_error {m : SM α} {g : α → SM β} {f : Stream} {e : Fault} (h : (m f).1 = .error e) :
    (m >>= g) f = (.error e, (m f).2) := by
  show SM.andThen m g f = _
  unfold SM.andThen
  generalize m f = y at h
  obtain ⟨y1, y2⟩ := y
  dsimp only at h
  subst h
  rfl

theorem sim_bind {m : SM α} {r : Stream → Res (α × Stream)} {g : α → SM β} {s : α → Stream → Res (β × Stream)}
    (h1 : Sim D st E m r) (h2 : ∀ a, Sim D st E (g a) (s a)) : Sim D st E (m >>= g) (fun f => r f >>= fun x => s x.1 x.2) := by
  intro f hf hd hst
  have p := h1 f hf hd hst
  dsimp only
  generalize r f = x at p
  obtain ⟨p1, p2, p3⟩ := p
  cases x with
  | error e =>
    obtain ⟨q1, q2⟩ := p3
    rw [andThen_error q1]
    exact ⟨p1, p2, rfl, q2⟩
  | ok x =>
    obtain ⟨q1, q2⟩ := p3
    rw [q1] at p1 p2
    rw [andThen_ok q1]
    exact h2 x.1 x.2 q2 p1 p2

theorem sim_lift (r : Res α) : Sim D st E (SM.lift r) (fun f => r >>= fun a => .ok (a, f)) := by
  intro f hf hd hst
  cases r with
  | error e => exact ⟨hd, hst, rfl, .inl hf⟩
  | ok a => exact ⟨hd, hst, rfl, hf⟩

theorem sim_lift_bind {r : Res α} {g : α → SM β} {s : α → Stream → Res (β × Stream)} (h : ∀ a, Sim D st E (g a) (s a)) :
    Sim D st E (SM.lift r >>= g) (fun f => r >>= fun a => s a f) := by
  refine Sim.congr (fun f => ?_) (sim_bind (sim_lift r) h)
  cases r <;> rfl

theorem sim_ite {c : Prop} [Decidable c] {m n : SM α} {r s : Stream → Res (α × Stream)} (h1 : c → Sim D st E m r)
    (h2 : ¬ c → Sim D st E n s) : Sim D st E (if c then m else n) (fun f => if c then r f else s f) := by
  by_cases hc : c
  · simp only [if_pos hc]; exact h1 hc
  · simp only [if_neg hc]; exact h2 hc

theorem seekg_fields (f : Stream) (o : Int) : (f.seekg o).data = f.data ∧ (f.seekg o).strict = f.strict ∧ (f.seekg o).eof = false := by
  unfold Stream.seekg
  dsimp only
  split
  · exact ⟨rfl, rfl, rfl⟩
  · split <;> exact ⟨rfl, rfl, rfl⟩

theorem read_fields (f : Stream) (n : Nat) : (f.read n).2.data = f.data ∧ (f.read n).2.strict = f.strict ∧
    ((f.read n).2.eof = false → f.Good → (f.read n).2.Good ∧ (f.read n).2.pos = f.pos + n ∧ (n ≠ 0 → f.pos + n ≤ f.data.length)) := by
  unfold Stream.read
  by_cases h : f.eof = true ∨ f.fail = true
  · rw [if_pos h]
    refine ⟨rfl, rfl, fun _ hg => ?_⟩
    rw [hg.1, hg.2] at h
    simp at h
  · rw [if_neg h]
    dsimp only
    by_cases hl : (slice f.data f.pos n).length < n
    · rw [if_pos hl]
      exact ⟨rfl, rfl, fun h => by cases h⟩
    · rw [if_neg hl]
      refine ⟨rfl, rfl, fun _ hg => ⟨hg, rfl, fun hn => ?_⟩⟩
      rw [slice_length] at hl
      omega

theorem readOrS_eq (f : Stream) (n : Nat) (e : Err) : SM.readOr n e f = if (f.read n).2.eof = true then (throwE e, (f.read n).2)
    else if (f.read n).2.fail = true then (ubE .uninit, (f.read n).2) else (.ok (f.read n).1, (f.read n).2) := by
  show (if (f.read n).2.eof = true then SM.lift (throwE e) else if (f.read n).2.fail = true then SM.lift (ubE .uninit)
    else pure (f.read n).1 : SM Bytes) (f.read n).2 = _
  split
  · rfl
  · split <;> rfl

/-- Reading and remembering the position. -/
theorem sim_readPos {n : Nat} {e : Err} {g : Bytes → Nat → SM α} {s : Bytes → Nat → Stream → Res (α × Stream)} (he : e ∈ E)
    (h : ∀ b o, (n ≠ 0 → o ≤ D.length) → Sim D st E (g b o) (s b o)) :
    Sim D st E (SM.readOr n e >>= fun b => SM.stream >>= fun f => g b f.pos)
      (fun f => f.readOr n e >>= fun x => s x.1 x.2.pos x.2) := by
  intro f hf hd hst
  obtain ⟨h1, h2, h3⟩ := read_fields f n
  have e1 := readOrS_eq f n e
  have e2 : f.readOr n e = if (f.read n).2.eof = true then throwE e else .ok ((f.read n).1, (f.read n).2) := rfl
  dsimp only
  rw [e2]
  by_cases hz : (f.read n).2.eof = true
  · rw [if_pos hz] at e1 ⊢
    rw [andThen_error (e := .exn e) (by rw [e1]; rfl), e1]
    exact ⟨h1.trans hd, h2.trans hst, rfl, .inr ⟨e, he, rfl⟩⟩
  · obtain ⟨h4, h5, h6⟩ := h3 (by simpa using hz) hf
    rw [if_neg hz, if_neg (by rw [h4.2]; decide)] at e1
    rw [if_neg hz, andThen_ok e1]
    exact h _ _ (fun hn => by have := h6 hn; rw [hd] at this; omega) _ h4 (h1.trans hd) (h2.trans hst)

/-- A read that throws `e` at the end of the file. -/
theorem sim_readOr (n : Nat) {e : Err} (he : e ∈ E) : Sim D st E (SM.readOr n e) (fun f => f.readOr n e) := by
  intro f hf hd hst
  obtain ⟨h1, h2, h3⟩ := read_fields f n
  have e2 : f.readOr n e = if (f.read n).2.eof = true then throwE e else .ok ((f.read n).1, (f.read n).2) := rfl
  dsimp only
  rw [readOrS_eq, e2]
  by_cases hz : (f.read n).2.eof = true
  · rw [if_pos hz, if_pos hz]
    exact ⟨h1.trans hd, h2.trans hst, rfl, .inr ⟨e, he, rfl⟩⟩
  · rw [if_neg hz, if_neg hz]
    obtain ⟨h4, -, -⟩ := h3 (by simpa using hz) hf
    rw [if_neg (by rw [h4.2]; decide)]
    exact ⟨h1.trans hd, h2.trans hst, rfl, h4⟩

theorem sim_test {c : Prop} [Decidable c] {e : Err} {m : SM α} {f : Stream} {x : Res (α × Stream)} (he : e ∈ E) (hd : f.data = D)
    (hst : f.strict = st) (h : ¬ c → SimAt D st E (m f) x) :
    SimAt D st E ((SM.lift (throwIf c e) >>= fun _ => m) f) (throwIf c e >>= fun _ => x) := by
  by_cases hc : c
  · have e1 : throwIf c e = throwE e := if_pos hc
    rw [e1]
    exact ⟨hd, hst, rfl, .inr ⟨e, he, rfl⟩⟩
  · have e1 : throwIf c e = .ok () := if_neg hc
    rw [e1]
    exact h hc

/-- Seeking with a test. -/
theorem sim_seek {o : Int} {e : Err} {m : SM α} {s : Stream → Res (α × Stream)} (he : e ∈ E) (h : Sim D st E m s) :
    Sim D st E (SM.seekg o >>= fun _ => SM.stream >>= fun f => SM.lift (throwIf (f.fail = true) e) >>= fun _ => m)
      (fun f => throwIf ((f.seekg o).fail = true) e >>= fun _ => s (f.seekg o)) := by
  intro f hf hd hst
  obtain ⟨h1, h2, h3⟩ := seekg_fields f o
  exact sim_test (f := f.seekg o) he (h1.trans hd) (h2.trans hst) fun hz => h _ ⟨h3, by simpa using hz⟩ (h1.trans hd) (h2.trans hst)

/-- Seeking to a place inside of the file. -/
theorem sim_seekIn {o : Nat} {m : SM α} {s : Stream → Res (α × Stream)} (ho : o ≤ D.length) (h : Sim D st E m s) :
    Sim D st E (SM.seekg o >>= fun _ => m) (fun f => s (f.seekg o)) := by
  intro f hf hd hst
  obtain ⟨h1, h2, h3⟩ := seekg_fields f o
  have hz : (f.seekg o).fail = false := by
    unfold Stream.seekg
    dsimp only
    rw [if_neg (by rw [hf.2]; decide), if_pos ⟨by omega, fun _ => by rw [hd]; omega⟩]
    exact hf.2
  exact h (f.seekg o) ⟨h3, hz⟩ (h1.trans hd) (h2.trans hst)

/-- The length of the file. -/
theorem sim_size {g : Nat → SM α} {s : Stream → Res (α × Stream)} (h : Sim D st E (g D.length) s) :
    Sim D st E (SM.stream >>= fun f => g f.data.length) s := by
  intro f hf hd hst
  have e : (SM.stream >>= fun f => g f.data.length) f = g f.data.length f := rfl
  rw [e, hd]
  exact h f hf hd hst

/-- A read after which failure is tested. -/
theorem sim_readFail {n : Nat} {e : Err} {g : Bytes → SM α}
    {s : Bytes → Stream → Res (α × Stream)} (he : e ∈ E) (h : ∀ b, Sim D st E (g b) (s b)) :
    Sim D st E (SM.read n >>= fun b => SM.stream >>= fun f => SM.lift (throwIf (f.fail = true) e) >>= fun _ => g b)
      (fun f => throwIf ((f.read n).2.fail = true) e >>= fun _ => s (f.read n).1 (f.read n).2) := by
  intro f hf hd hst
  obtain ⟨h1, h2, h3⟩ := read_fields f n
  refine sim_test (f := (f.read n).2) he (h1.trans hd) (h2.trans hst) fun hz => ?_
  have hge : (f.read n).2.eof = false := by
    unfold Stream.read at hz ⊢
    rw [if_neg (by rw [hf.1, hf.2]; decide)] at hz ⊢
    dsimp only at hz ⊢
    by_cases hl : (slice f.data f.pos n).length < n
    · rw [if_pos hl] at hz; exact absurd rfl hz
    · rw [if_neg hl]; exact hf.1
  exact h _ _ (h3 hge hf).1 (h1.trans hd) (h2.trans hst)
end

/-- The exceptions after which the stream may be found failed: the ones that report that a part of the file which the headers
    point to is not there. -/
def shortErrs : List Err := [.imageNtHeadersNotFound, .errorReadingImageNtHeaders, .errorReadingDataDirectories,
  .errorReadingOverlay, .imageSectionHeadersNotFound, .errorReadingSectionHeader, .imageSectionDataNotFound, .errorReadingFile]

theorem sim_loadNt (D : Bytes) (st : Bool) (k : Kind) (pre : List (Nat × Nat)) (lf : Nat) :
    Sim D st shortErrs (loadNtS k pre lf) (fun f => loadNt k pre f lf) := by
  unfold loadNtS
  refine Sim.congr (fun f => ?_) (sim_lift_bind fun _ => sim_seek (by simp [shortErrs]) (sim_bind (sim_readOr _ (by simp [shortErrs]))
    fun b => sim_lift_bind fun _ => sim_ite (fun _ => sim_ite (fun _ => sim_lift _) fun _ => sim_bind (sim_readOr _ (by simp [shortErrs]))
      fun b => sim_pure _) fun _ => sim_pure _))
  rfl

theorem sim_loadStub (D : Bytes) (st : Bool) (h64 : 64 ≤ D.length) (lf : Nat) :
    Sim D st shortErrs (loadStubS lf) (fun f => loadStub f lf) := by
  unfold loadStubS
  refine Sim.congr (fun f => ?_) (sim_ite (fun _ => sim_seekIn (o := 64) h64 (sim_readOr _ (by simp [shortErrs]))) fun _ => sim_pure _)
  rfl

theorem sim_loadRaw (D : Bytes) (st : Bool) (h : NtHdr) (fs : Nat) (fm : Bool) (s : Sec) :
    Sim D st shortErrs (loadRawS h fs fm s) (fun f => loadRaw h fs fm f s) := by
  unfold loadRawS
  refine Sim.congr (fun f => ?_) (sim_lift_bind fun _ => sim_seek (by simp [shortErrs]) (sim_readFail (by simp [shortErrs])
    fun b => sim_pure _))
  rfl

/-- The end of `loadSec`. -/
def secEnd (h : NtHdr) (last next : Nat) (s : Sec) (f : Stream) : Res ((Sec × Nat) × Stream) :=
  throwIf (w32 (s.va + s.alignedVS h.secAlign) > alignUp h.sizeImage h.secAlign) .sectionIncorrectAddrOrSize >>= fun _ =>
    .ok ((s, last), f.seekg next)

/-- What follows the header of a section in `loadSec`. -/
def secRest (h : NtHdr) (fs : Nat) (fm : Bool) (last : Nat) (b : Bytes) (next : Nat) (f : Stream) : Res ((Sec × Nat) × Stream) :=
  checkSec (decSec b) >>= fun _ =>
    if (decSec b).rawSize ≠ 0 then
      loadRaw h fs fm f (decSec b) >>= fun x =>
        secEnd h (if (decSec b).rawSize ≠ 0 then (decSec b).rawSize else last) next x.1 x.2
    else secEnd h (if (decSec b).rawSize ≠ 0 then (decSec b).rawSize else last) next (decSec b) f

theorem loadSec_eq (h : NtHdr) (fs : Nat) (fm : Bool) (last : Nat) (f : Stream) :
    (loadSec h fs fm f last >>= fun x => .ok ((x.1, x.2.1), x.2.2)) =
      (f.readOr 40 .errorReadingSectionHeader >>= fun x => secRest h fs fm last x.1 x.2.pos x.2) := by
  unfold loadSec
  simp only [bind_assoc]
  congr 1
  funext x
  unfold secRest secEnd
  congr 1
  funext _
  by_cases hc : (decSec x.1).rawSize ≠ 0
  · simp only [if_pos hc, bind_assoc]
    rfl
  · simp only [if_neg hc, bind_assoc]
    rfl

theorem sim_secEnd (D : Bytes) (st : Bool) (h : NtHdr) (last next : Nat) (hn : next ≤ D.length) (s : Sec) :
    Sim D st shortErrs (SM.lift (throwIf (w32 (s.va + s.alignedVS h.secAlign) > alignUp h.sizeImage h.secAlign)
      .sectionIncorrectAddrOrSize) >>= fun _ => SM.seekg next >>= fun _ => pure (s, last)) (secEnd h last next s) :=
  Sim.congr (fun _ => rfl) (sim_lift_bind fun _ => sim_seekIn hn (sim_pure _))

/-- What follows the header of a section in `loadSecS`. -/
def secRestS (h : NtHdr) (fsize : Nat) (fromMem : Bool) (last : Nat) (b : Bytes) (next : Nat) : SM (Sec × Nat) := do
  let s := decSec b
  SM.lift (checkSec s)
  let last := if s.rawSize ≠ 0 then s.rawSize else last
  let s ← if s.rawSize ≠ 0 then loadRawS h fsize fromMem s else pure s
  SM.lift (throwIf (w32 (s.va + s.alignedVS h.secAlign) > alignUp h.sizeImage h.secAlign) .sectionIncorrectAddrOrSize)
  SM.seekg next
  pure (s, last)

theorem sim_loadSec (D : Bytes) (st : Bool) (h : NtHdr) (fs : Nat) (fm : Bool) (last : Nat) :
    Sim D st shortErrs (loadSecS h fs fm last)
      (fun f => loadSec h fs fm f last >>= fun x => .ok ((x.1, x.2.1), x.2.2)) := by
  refine Sim.congr (loadSec_eq h fs fm last) ?_
  refine sim_readPos (n := 40) (e := .errorReadingSectionHeader) (E := shortErrs) (g := secRestS h fs fm last) (s := secRest h fs fm last) (by simp [shortErrs]) fun b o ho => ?_
  refine Sim.congr (fun f => ?_) (sim_lift_bind fun _ => sim_ite (fun _ => sim_bind (sim_loadRaw D st h fs fm _)
    fun s => sim_secEnd D st h _ _ (ho (by decide)) s) fun _ => sim_bind (sim_pure _)
    fun s => sim_secEnd D st h _ _ (ho (by decide)) s)
  rfl

theorem sim_loadSecs (D : Bytes) (st : Bool) (h : NtHdr) (fs : Nat) (fm : Bool) (n last : Nat) :
    Sim D st shortErrs (loadSecsS h fs fm n last)
      (fun f => loadSecs h fs fm n f last >>= fun x => .ok ((x.1, x.2.1), x.2.2)) := by
  induction n generalizing last with
  | zero => exact sim_pure _
  | succ n ih =>
    refine Sim.congr (fun f => ?_) (sim_bind (sim_loadSec D st h fs fm last) fun r => sim_bind (ih r.2) fun q => sim_pure _)
    rw [loadSecs]
    simp only [bind_assoc]
    rfl

/-- What follows the DOS header in `loadCore`. -/
def coreRest (k : Kind) (fm : Bool) (pre : List (Nat × Nat)) (file dos : Bytes) (f : Stream) : Res (Image × Stream) := do
  let lfanew := rd 4 dos 60
  let (h, f) ← loadNt k pre f lfanew
  checkNt k h
  let (stub, f) ← loadStub f lfanew
  let first := w32 (lfanew + h.sizeOptHdr + 24)
  let f := if h.numSections > 0 then f.seekg first else f
  throwIf (f.fail = true) .imageSectionHeadersNotFound
  let (secs, last, f) ← loadSecs h file.length fm h.numSections f 0
  throwIf (secs.head?.any (fun s => decide (h.sizeHeaders > s.va)) = true) .incorrectSizeOfHeaders
  throwIf (contigTest h.secAlign secs = false) .imageSectionTableIncorrect
  let (hd, f) ← (f.seekg 0).readOr (headersLen h file.length secs) .errorReadingFile
  .ok ({ kind := k, dos := slice dos 0 60, lfanew := lfanew, stub := stub, nt := h, secs := secs,
         hasOverlay := overlayTest file.length secs last, hdrData := hd }, f)

theorem loadCore_eq (k : Kind) (st fm : Bool) (pre : List (Nat × Nat)) (file : Bytes) :
    loadCore k st fm pre file =
      (readDosHeader file >>= fun dos => coreRest k fm pre file dos { data := file, strict := st, pos := 64 }) := rfl

theorem sim_seekIf {D : Bytes} {st : Bool} {E : List Err} {α : Type} {c : Prop} [Decidable c] {o : Int} {e : Err} {m : SM α}
    {s : Stream → Res (α × Stream)} (he : e ∈ E) (h : Sim D st E m s) :
    Sim D st E (if c then SM.seekg o >>= fun _ => SM.stream >>= fun f => SM.lift (throwIf (f.fail = true) e) >>= fun _ => m
        else pure () >>= fun _ => SM.stream >>= fun f => SM.lift (throwIf (f.fail = true) e) >>= fun _ => m)
      (fun f => throwIf ((if c then f.seekg o else f).fail = true) e >>= fun _ => s (if c then f.seekg o else f)) := by
  by_cases hc : c
  · simp only [if_pos hc]
    exact sim_seek he h
  · simp only [if_neg hc]
    intro f hf hd hst
    exact sim_test (f := f) he hd hst fun _ => h f hf hd hst

/-- `readPeS` with the size of the file. -/
def readPeN (k : Kind) (fm : Bool) (pre : List (Nat × Nat)) (dos : Bytes) (fsize : Nat) : SM Image := do
  let lfanew := rd 4 dos 60
  let h ← loadNtS k pre lfanew
  SM.lift (checkNt k h)
  let stub ← loadStubS lfanew
  if h.numSections > 0 then SM.seekg (w32 (lfanew + h.sizeOptHdr + 24)) else pure ()
  let f ← SM.stream
  SM.lift (throwIf (f.fail = true) .imageSectionHeadersNotFound)
  let r ← loadSecsS h fsize fm h.numSections 0
  SM.lift (throwIf (r.1.head?.any (fun s => decide (h.sizeHeaders > s.va)) = true) .incorrectSizeOfHeaders)
  SM.lift (throwIf (contigTest h.secAlign r.1 = false) .imageSectionTableIncorrect)
  SM.seekg (0 : Nat)
  let hd ← SM.readOr (headersLen h fsize r.1) .errorReadingFile
  pure { kind := k, dos := slice dos 0 60, lfanew := lfanew, stub := stub, nt := h, secs := r.1,
         hasOverlay := overlayTest fsize r.1 r.2, hdrData := hd }

theorem sim_readPe (D : Bytes) (st : Bool) (h64 : 64 ≤ D.length) (k : Kind) (fm : Bool) (pre : List (Nat × Nat)) (dos : Bytes) :
    Sim D st shortErrs (readPeS k fm pre dos) (coreRest k fm pre D dos) := by
  refine sim_size (g := readPeN k fm pre dos) ?_
  refine Sim.congr (fun f => ?_) (sim_bind (sim_loadNt D st k pre _) fun h => sim_lift_bind fun _ => sim_bind (sim_loadStub D st h64 _)
    fun stub => sim_seekIf (by simp [shortErrs]) (sim_bind (sim_loadSecs D st h _ fm _ _) fun r => sim_lift_bind fun _ =>
      sim_lift_bind fun _ => sim_seekIn (Nat.zero_le _) (sim_bind (sim_readOr _ (by simp [shortErrs])) fun hd => sim_pure _)))
  unfold coreRest
  simp only [bind_assoc]
  rfl

/-- `read_dos_header` on a good stream. -/
theorem dosS_short (f : Stream) (hf : f.Good) (hl : f.data.length < f.pos + 64) :
    dosS f = (throwE .badDosHeader, { f with pos := f.pos + (slice f.data f.pos 64).length, eof := true, fail := true }) := by
  have e1 : (f.read 64) = (slice f.data f.pos 64, { f with pos := f.pos + (slice f.data f.pos 64).length, eof := true, fail := true }) := by
    unfold Stream.read
    rw [if_neg (by rw [hf.1, hf.2]; decide)]
    dsimp only
    rw [if_pos (by rw [slice_length]; omega)]
  have e2 : dosS f = (SM.lift (throwIf (f.eof = true) .badPeFile) >>= fun _ => SM.readOr 64 .badDosHeader >>= fun b =>
    SM.lift (throwIf (rd 2 b 0 ≠ 0x5a4d) .badDosHeader) >>= fun _ => pure b) f := rfl
  have e0 : throwIf (f.eof = true) Err.badPeFile = .ok () := if_neg (by rw [hf.1]; decide)
  rw [e2, e0]
  have e3 : SM.readOr 64 .badDosHeader f =
      (throwE .badDosHeader, { f with pos := f.pos + (slice f.data f.pos 64).length, eof := true, fail := true }) := by
    rw [readOrS_eq, e1, if_pos rfl]
  show (SM.readOr 64 .badDosHeader >>= _) f = _
  rw [andThen_error (e := .exn .badDosHeader) (by rw [e3]; rfl), e3]
  rfl

theorem dosS_long (f : Stream) (hf : f.Good) (hl : f.pos + 64 ≤ f.data.length) :
    dosS f = (throwIf (rd 2 f.data f.pos ≠ 0x5a4d) .badDosHeader >>= fun _ => .ok (slice f.data f.pos 64),
      { f with pos := f.pos + 64 }) := by
  have e1 : (f.read 64) = (slice f.data f.pos 64, { f with pos := f.pos + 64 }) := by
    unfold Stream.read
    rw [if_neg (by rw [hf.1, hf.2]; decide)]
    dsimp only
    rw [if_neg (by rw [slice_length]; omega)]
  have e2 : dosS f = (SM.lift (throwIf (f.eof = true) .badPeFile) >>= fun _ => SM.readOr 64 .badDosHeader >>= fun b =>
    SM.lift (throwIf (rd 2 b 0 ≠ 0x5a4d) .badDosHeader) >>= fun _ => pure b) f := rfl
  have e0 : throwIf (f.eof = true) Err.badPeFile = .ok () := if_neg (by rw [hf.1]; decide)
  rw [e2, e0]
  have e3 : SM.readOr 64 .badDosHeader f = (.ok (slice f.data f.pos 64), { f with pos := f.pos + 64 }) := by
    rw [readOrS_eq, e1]
    dsimp only
    rw [if_neg (by rw [hf.1]; decide), if_neg (by rw [hf.2]; decide)]
  show (SM.readOr 64 .badDosHeader >>= _) f = _
  rw [andThen_ok e3]
  have e4 : rd 2 (slice f.data f.pos 64) 0 = rd 2 f.data f.pos := rd_of_slice _ (by decide)
  rw [e4]
  by_cases hm : rd 2 f.data f.pos ≠ 0x5a4d
  · have e5 : throwIf (rd 2 f.data f.pos ≠ 0x5a4d) Err.badDosHeader = throwE .badDosHeader := if_pos hm
    rw [e5]
    rfl
  · have e5 : throwIf (rd 2 f.data f.pos ≠ 0x5a4d) Err.badDosHeader = .ok () := if_neg hm
    rw [e5]
    rfl

/-- What is read from a good stream that has 64 bytes left. -/
def coreR (k : Kind) (fm : Bool) (pre : List (Nat × Nat)) (f : Stream) : Res (Image × Stream) :=
  throwIf (rd 2 f.data f.pos ≠ 0x5a4d) .badDosHeader >>= fun _ =>
    coreRest k fm pre f.data (slice f.data f.pos 64) { f with pos := f.pos + 64 }

theorem core_at (k : Kind) (fm : Bool) (pre : List (Nat × Nat)) (f : Stream) (hf : f.Good) (hl : f.pos + 64 ≤ f.data.length) :
    SimAt f.data f.strict shortErrs ((dosS >>= readPeS k fm pre) f) (coreR k fm pre f) := by
  have e := dosS_long f hf hl
  unfold coreR
  by_cases hm : rd 2 f.data f.pos ≠ 0x5a4d
  · have e5 : throwIf (rd 2 f.data f.pos ≠ 0x5a4d) Err.badDosHeader = throwE .badDosHeader := if_pos hm
    rw [e5] at e ⊢
    rw [andThen_error (e := .exn .badDosHeader) (by rw [e]; rfl), e]
    exact ⟨rfl, rfl, rfl, .inl hf⟩
  · have e5 : throwIf (rd 2 f.data f.pos ≠ 0x5a4d) Err.badDosHeader = .ok () := if_neg hm
    rw [e5] at e ⊢
    rw [andThen_ok (a := slice f.data f.pos 64) (by rw [e]; rfl)]
    exact sim_readPe f.data f.strict (by omega) k fm pre _ _ hf rfl rfl

/-- The raw data that a record of the debug directory names lies in the file, if the record is of one of the three types
    whose data is read (COFF symbols, CodeView, miscellaneous). -/
def RawIn (D : Bytes) (d : Bytes) : Prop :=
  rd 4 d 12 = 1 ∨ rd 4 d 12 = 2 ∨ rd 4 d 12 = 4 → rd 4 d 16 ≠ 0 → rd 4 d 24 + rd 4 d 16 ≤ D.length

theorem debugLoopS_eq (p : Image) (fin : Nat) (f : Stream) (pos : Nat) (dir : Bytes) (acc : List (Nat × Bytes)) :
    (debugLoopS p fin f pos dir acc).1 = debugLoop p fin f pos dir acc ∧
      (debugLoopS p fin f pos dir acc).2.data = f.data ∧ (debugLoopS p fin f pos dir acc).2.strict = f.strict ∧
      (f.Good → (pos < fin → RawIn f.data dir) →
        (∀ i d, pos + 28 * i < fin → p.readT 28 (pos + 28 * i) .virt true = .ok d → RawIn f.data d) →
        (debugLoopS p fin f pos dir acc).2.Good) := by
  generalize hN : 4294967296 - pos = N
  induction N using Nat.strongRecOn generalizing f pos dir acc with
  | ind N ih =>
    rw [debugLoopS.eq_1, debugLoop.eq_1]
    dsimp only
    by_cases h1 : rd 4 dir 24 ≠ 0 ∧ pos < fin
    · rw [if_pos h1, if_pos h1]
      obtain ⟨s1, s2, s3⟩ := seekg_fields f (rd 4 dir 24 : Nat)
      obtain ⟨r1, r2, r3⟩ := read_fields (f.seekg (rd 4 dir 24 : Nat)) (rd 4 dir 16)
      have hg : f.Good → rd 4 dir 24 + rd 4 dir 16 ≤ f.data.length → ((f.seekg (rd 4 dir 24 : Nat)).read (rd 4 dir 16)).2.Good := by
        intro hf hr
        have e1 : f.seekg (rd 4 dir 24 : Nat) = { f with eof := false, pos := rd 4 dir 24 } := by
          unfold Stream.seekg
          dsimp only
          rw [if_neg (by rw [hf.2]; decide), if_pos ⟨by omega, fun _ => by omega⟩]
          rfl
        rw [e1]
        unfold Stream.read
        dsimp only
        rw [if_neg (by rw [hf.2]; decide), if_neg (by rw [slice_length]; omega)]
        exact ⟨rfl, hf.2⟩
      generalize hF : (if (rd 4 dir 12 = 2 ∨ rd 4 dir 12 = 4 ∨ rd 4 dir 12 = 1) ∧ rd 4 dir 16 ≠ 0 then
        ((f.seekg (rd 4 dir 24 : Nat)).read (rd 4 dir 16)).2 else f) = F
      have f1 : F.data = f.data := by rw [← hF]; split; exact r1.trans s1; rfl
      have f2 : F.strict = f.strict := by rw [← hF]; split; exact r2.trans s2; rfl
      have f3 : f.Good → (pos < fin → RawIn f.data dir) → F.Good := by
        intro a b
        rw [← hF]
        split
        · rename_i hw
          exact hg a (b h1.2 (by omega) hw.2)
        · exact a
      clear hg hF
      generalize (if (rd 4 dir 12 = 2 ∨ rd 4 dir 12 = 4 ∨ rd 4 dir 12 = 1) ∧ rd 4 dir 16 ≠ 0 then
        mapInsert acc (rd 4 dir 24) (resize ((f.seekg (rd 4 dir 24 : Nat)).read (rd 4 dir 16)).1 (rd 4 dir 16)) else acc) = A
      by_cases h2 : ((rd 4 dir 12 = 2 ∨ rd 4 dir 12 = 4 ∨ rd 4 dir 12 = 1) ∧ rd 4 dir 16 ≠ 0) ∧
          ((f.seekg (rd 4 dir 24 : Nat)).read (rd 4 dir 16)).2.eof = true
      · rw [if_pos h2, if_pos h2]
        exact ⟨rfl, f1, f2, fun a b _ => f3 a b⟩
      · rw [if_neg h2, if_neg h2]
        cases hr : p.readT 28 (w32 (pos + 28)) .virt true with
        | error e =>
          cases e with
          | exn e => exact ⟨rfl, f1, f2, fun a b _ => f3 a b⟩
          | ub u => exact ⟨rfl, f1, f2, fun a b _ => f3 a b⟩
        | ok d =>
          dsimp only
          by_cases h3 : pos < w32 (pos + 28)
          · rw [dif_pos h3, dif_pos h3]
            have hlt : w32 (pos + 28) < 4294967296 := Nat.mod_lt _ (by decide)
            obtain ⟨i1, i2, i3, i4⟩ := ih (4294967296 - w32 (pos + 28)) (by omega) F (w32 (pos + 28)) d A rfl
            refine ⟨i1, i2.trans f1, i3.trans f2, fun a b c => i4 (f3 a b) ?_ ?_⟩
            · intro hlt'
              rw [f1]
              have e : w32 (pos + 28) = pos + 28 := by
                unfold w32 at h3 ⊢
                omega
              rw [e] at hr hlt'
              exact c 1 d hlt' hr
            · intro i d' hi hd'
              rw [f1]
              have e : w32 (pos + 28) + 28 * i = pos + 28 * (i + 1) := by
                unfold w32 at h3 ⊢
                omega
              rw [e] at hd' hi
              exact c (i + 1) d' hi hd'
          · rw [dif_neg h3, dif_neg h3]
            exact ⟨rfl, f1, f2, fun a b _ => f3 a b⟩
    · rw [if_neg h1, if_neg h1]
      exact ⟨rfl, rfl, rfl, fun hf _ _ => hf⟩

theorem debugLoop_noexn (p : Image) (fin : Nat) (f : Stream) (pos : Nat) (dir : Bytes) (acc : List (Nat × Bytes)) (e : Err) :
    debugLoop p fin f pos dir acc ≠ .error (.exn e) := by
  generalize hN : 4294967296 - pos = N
  induction N using Nat.strongRecOn generalizing f pos dir acc with
  | ind N ih =>
    rw [debugLoop.eq_1]
    dsimp only
    split
    · split
      · intro h; cases h
      · split
        · intro h; cases h
        · intro h; cases h
        · split
          · rename_i h3
            have hlt : w32 (pos + 28) < 4294967296 := Nat.mod_lt _ (by decide)
            exact ih _ (by omega) _ _ _ _ rfl
          · intro h; cases h
    · intro h; cases h

/-- The records of the debug directory name raw data inside of the file. -/
def DebugIn (D : Bytes) (p : Image) : Prop :=
  ∀ rva size i d, p.nt.getDirRva dirDebug = .ok rva → p.nt.getDirSize dirDebug = .ok size → rva + 28 * i < w32 (rva + size) →
    p.readT 28 (rva + 28 * i) .virt true = .ok d → RawIn D d

/-- `loadDebug` behind the test for the directory. -/
def debugGo (p : Image) (f : Stream) : Res (List (Nat × Bytes)) := do
  let rva ← p.nt.getDirRva dirDebug
  let n ← p.dataLenFrom rva rva .virt true
  if n < 28 then .ok []
  else
    let size ← p.nt.getDirSize dirDebug
    let d ← p.readT 28 rva .virt true
    debugLoop p (w32 (rva + size)) f rva d []

/-- `loadDebugS` behind the test for the directory. -/
def debugGoS (p : Image) : SM (List (Nat × Bytes)) :=
  match debugStart p with
  | .error (.exn _) => pure []
  | .error (.ub u) => SM.lift (.error (.ub u))
  | .ok none => pure []
  | .ok (some (rva, size, d)) => fun f => debugLoopS p (w32 (rva + size)) f rva d []

theorem debugGoS_eq (p : Image) (f : Stream) : ((debugGoS p f).1 = match debugGo p f with
      | .error (.exn _) => .ok []
      | r => r) ∧ (debugGoS p f).2.data = f.data ∧
    (debugGoS p f).2.strict = f.strict ∧ (f.Good → DebugIn f.data p → (debugGoS p f).2.Good) := by
  unfold debugGoS debugGo debugStart
  cases h1 : p.nt.getDirRva dirDebug with
  | error e => cases e <;> exact ⟨rfl, rfl, rfl, fun h _ => h⟩
  | ok rva =>
    simp only [ok_bind]
    cases h2 : p.dataLenFrom rva rva .virt true with
    | error e => cases e <;> exact ⟨rfl, rfl, rfl, fun h _ => h⟩
    | ok n =>
      simp only [ok_bind]
      by_cases h3 : n < 28
      · simp only [if_pos h3]
        exact ⟨rfl, rfl, rfl, fun h _ => h⟩
      · simp only [if_neg h3]
        cases h4 : p.nt.getDirSize dirDebug with
        | error e => cases e <;> exact ⟨rfl, rfl, rfl, fun h _ => h⟩
        | ok size =>
          simp only [ok_bind]
          cases h5 : p.readT 28 rva .virt true with
          | error e => cases e <;> exact ⟨rfl, rfl, rfl, fun h _ => h⟩
          | ok d =>
            simp only [ok_bind]
            obtain ⟨q1, q2, q3, q4⟩ := debugLoopS_eq p (w32 (rva + size)) f rva d []
            refine ⟨?_, q2, q3, fun hf hd => q4 hf ?_ ?_⟩
            · rw [q1]
              have := debugLoop_noexn p (w32 (rva + size)) f rva d []
              generalize debugLoop p (w32 (rva + size)) f rva d [] = y at this
              cases y with
              | ok y => rfl
              | error e =>
                cases e with
                | exn e => exact absurd rfl (this e)
                | ub u => rfl
            · intro hlt
              exact hd rva size 0 d h1 h4 hlt h5
            · intro i d' hi hd'
              exact hd rva size i d' h1 h4 hi hd'

theorem loadDebugS_eq (p : Image) (f : Stream) : (loadDebugS p f).1 = loadDebug p f ∧ (loadDebugS p f).2.data = f.data ∧
    (loadDebugS p f).2.strict = f.strict ∧ (f.Good → DebugIn f.data p → (loadDebugS p f).2.Good) := by
  unfold loadDebugS loadDebug
  cases he : p.hasDir dirDebug with
  | error e => exact ⟨rfl, rfl, rfl, fun h _ => h⟩
  | ok b =>
    cases b with
    | false => exact ⟨rfl, rfl, rfl, fun h _ => h⟩
    | true => exact debugGoS_eq p f

theorem loadDebugS_exn (p : Image) (f : Stream) (e : Err) (h : loadDebug p f = throwE e) : (loadDebugS p f).2 = f := by
  unfold loadDebug at h
  unfold loadDebugS
  cases he : p.hasDir dirDebug with
  | error e => rfl
  | ok b =>
    cases b with
    | false => rfl
    | true =>
      exfalso
      rw [he, ok_bind] at h
      change (match debugGo p f with
        | .error (.exn _) => .ok []
        | r => r) = throwE e at h
      generalize debugGo p f = y at h
      cases y with
      | ok y => cases h
      | error e => cases e <;> cases h

/-- The image read from a good stream that has 64 bytes left. -/
def bodyR (k : Kind) (fm rdb : Bool) (pre : List (Nat × Nat)) (f : Stream) : Res Image :=
  coreR k fm pre f >>= fun x =>
    if rdb then loadDebug x.1 x.2 >>= fun d => .ok { x.1 with debugData := d } else .ok x.1

theorem sm_assoc {α β γ : Type} (m : SM α) (g : α → SM β) (h : β → SM γ) : (m >>= g) >>= h = m >>= fun a => g a >>= h := by
  funext f
  show SM.andThen (SM.andThen m g) h f = SM.andThen m (fun a => SM.andThen (g a) h) f
  unfold SM.andThen
  generalize m f = y
  obtain ⟨y1, y2⟩ := y
  cases y1 <;> rfl

theorem tail_at {α δ : Type} {E : List Err} (f : Stream) (c : SM α) (x : Res (α × Stream))
    (hc : SimAt f.data f.strict E (c f) x) (ds : α → SM δ) (dr : α → Stream → Res δ) (P : Bytes → α → Prop)
    (hds : ∀ p g, (ds p g).1 = dr p g ∧ (ds p g).2.data = g.data ∧ (ds p g).2.strict = g.strict ∧
      (g.Good → P g.data p → (ds p g).2.Good)) (hdx : ∀ p g e, dr p g = throwE e → (ds p g).2 = g) (upd : α → δ → α) (b : Bool) :
    ((c >>= fun p => if b then (ds p >>= fun d => pure (upd p d)) else pure p) f).1 =
        (x >>= fun x => if b then dr x.1 x.2 >>= fun d => .ok (upd x.1 d) else .ok x.1) ∧
      ((c >>= fun p => if b then (ds p >>= fun d => pure (upd p d)) else pure p) f).2.data = f.data ∧
      ((c >>= fun p => if b then (ds p >>= fun d => pure (upd p d)) else pure p) f).2.strict = f.strict ∧
      ((∀ e, (x >>= fun x => if b then dr x.1 x.2 >>= fun d => .ok (upd x.1 d) else .ok x.1) = throwE e → e ∉ E) →
        (b = true → ∀ y, x = .ok y → (∀ e, (x >>= fun x => dr x.1 x.2) ≠ throwE e) → P f.data y.1) →
        ((c >>= fun p => if b then (ds p >>= fun d => pure (upd p d)) else pure p) f).2.Good) := by
  obtain ⟨c1, c2, c3⟩ := hc
  cases x with
  | error e =>
    obtain ⟨d1, d2⟩ := c3
    rw [andThen_error d1]
    refine ⟨rfl, c1, c2, fun h _ => ?_⟩
    rcases d2 with d2 | ⟨t, ht, d2⟩
    · exact d2
    · subst d2
      exact absurd ht (h t rfl)
  | ok x =>
    obtain ⟨d1, d2⟩ := c3
    rw [d1] at c1 c2
    rw [andThen_ok d1]
    cases b with
    | false => exact ⟨rfl, c1, c2, fun _ _ => d2⟩
    | true =>
      obtain ⟨l1, l2, l3, l4⟩ := hds x.1 x.2
      have l5 := hdx x.1 x.2
      have key : (ds x.1 x.2).2.data = f.data ∧ (ds x.1 x.2).2.strict = f.strict := ⟨l2.trans c1, l3.trans c2⟩
      simp only [if_true, ok_bind]
      generalize hq : ds x.1 x.2 = q at l1 l2 l3 l4 l5 key
      obtain ⟨q1, q2⟩ := q
      dsimp only at l1 l2 l3 l4 l5 key
      rw [← l1] at l5 ⊢
      cases q1 with
      | error e =>
        rw [andThen_error (e := e) (by rw [hq]), hq]
        refine ⟨rfl, key.1, key.2, fun _ h => ?_⟩
        cases e with
        | exn e => rw [l5 e rfl]; exact d2
        | ub u => exact l4 d2 (by rw [show x.2.data = f.data from c1]; exact h trivial _ rfl fun e he => by cases he)
      | ok d =>
        rw [andThen_ok hq]
        exact ⟨rfl, key.1, key.2, fun _ h => l4 d2 (by rw [show x.2.data = f.data from c1]; exact h trivial _ rfl fun e he => by cases he)⟩

theorem body_at (k : Kind) (fm rdb : Bool) (pre : List (Nat × Nat)) (f : Stream) (hf : f.Good) (hl : f.pos + 64 ≤ f.data.length) :
    (bodyS k fm rdb pre f).1 = bodyR k fm rdb pre f ∧ (bodyS k fm rdb pre f).2.data = f.data ∧
    (bodyS k fm rdb pre f).2.strict = f.strict ∧
    ((∀ e, bodyR k fm rdb pre f = throwE e → e ∉ shortErrs) →
      (rdb = true → ∀ x, coreR k fm pre f = .ok x → (∀ e, (coreR k fm pre f >>= fun x => loadDebug x.1 x.2) ≠ throwE e) →
        DebugIn f.data x.1) → (bodyS k fm rdb pre f).2.Good) := by
  have e0 : bodyS k fm rdb pre f = ((dosS >>= readPeS k fm pre) >>= fun p =>
      if rdb then (loadDebugS p >>= fun d => pure { p with debugData := d }) else pure p) f := by
    rw [sm_assoc]
    rfl
  rw [e0]
  exact tail_at f _ _ (core_at k fm pre f hf hl) loadDebugS loadDebug DebugIn loadDebugS_eq loadDebugS_exn (fun p d => { p with debugData := d }) rdb

theorem tellg_good (f : Stream) (hf : f.Good) : f.tellg = ((f.pos : Int), f) := by
  unfold Stream.tellg
  rw [if_neg (by rw [hf.1, hf.2]; decide)]

theorem hits_good (m : Mask) (f : Stream) (hf : f.Good) : m.hits f = false := by
  unfold Mask.hits
  rw [hf.1, hf.2]
  simp

theorem good_eta (f : Stream) (hf : f.Good) : { f with eof := false, fail := false } = f := by
  obtain ⟨d, s, p, e, l⟩ := f
  obtain ⟨h1, h2⟩ := hf
  dsimp only at h1 h2
  subst h1
  subst h2
  rfl

theorem seek_back (f g : Stream) (hf : f.Good) (hg : g.Good) (hd : g.data = f.data) (hs : g.strict = f.strict)
    (hp : f.pos ≤ f.data.length) : g.seekg (f.pos : Int) = f := by
  unfold Stream.seekg
  dsimp only
  rw [if_neg (by rw [hg.2]; decide), if_pos ⟨by omega, fun _ => by rw [hd]; omega⟩, hd, hs, hg.2]
  exact good_eta f hf

/-- The stream is left as it was by a constructor whose body does not find the file too short. -/
theorem open_restored (k : Kind) (fm rdb : Bool) (pre : List (Nat × Nat)) (m : Mask) (f : Stream) (hf : f.Good)
    (hl : f.pos + 64 ≤ f.data.length) (he : ∀ e, bodyR k fm rdb pre f = throwE e → e ∉ shortErrs)
    (hub : ∀ u, bodyR k fm rdb pre f ≠ ubE u)
    (hd : rdb = true → ∀ x, coreR k fm pre f = .ok x → (∀ e, (coreR k fm pre f >>= fun x => loadDebug x.1 x.2) ≠ throwE e) →
      DebugIn f.data x.1) :
    openS k fm rdb pre m f = (bodyR k fm rdb pre f, f) := by
  obtain ⟨b1, b2, b3, b4⟩ := body_at k fm rdb pre f hf hl
  have hg := b4 he hd
  have e1 : (bodyS k fm rdb pre f).2.restore m f.pos = (.ok (), f) := by
    unfold Stream.restore
    dsimp only
    rw [seek_back f _ hf hg b2 b3 (by omega), hits_good m f hf]
    simp only [Bool.false_eq_true, if_false]
    rw [good_eta f hf]
  unfold openS
  rw [tellg_good f hf]
  dsimp only
  rw [hits_good m f hf, b1, e1]
  simp only [Bool.false_eq_true, if_false]
  cases hr : bodyR k fm rdb pre f with
  | ok a => rfl
  | error e =>
    cases e with
    | exn e => rfl
    | ub u => exact absurd hr (hub u)

/-- The constructor on a good stream in terms of its body. -/
theorem openS_good (k : Kind) (fm rdb : Bool) (pre : List (Nat × Nat)) (m : Mask) (f : Stream) (hf : f.Good) :
    openS k fm rdb pre m f = match (bodyS k fm rdb pre f).1 with
      | .error (.ub u) => (.error (.ub u), (bodyS k fm rdb pre f).2)
      | v => match ((bodyS k fm rdb pre f).2.restore m f.pos).1 with
        | .ok _ => (v, ((bodyS k fm rdb pre f).2.restore m f.pos).2)
        | .error e => (.error e, ((bodyS k fm rdb pre f).2.restore m f.pos).2) := by
  unfold openS
  rw [tellg_good f hf]
  dsimp only
  rw [hits_good m f hf]
  simp only [Bool.false_eq_true, if_false]
  generalize bodyS k fm rdb pre f = y
  obtain ⟨y1, y2⟩ := y
  cases y1 with
  | ok y => rfl
  | error e => cases e <;> rfl

theorem bodyS_short (k : Kind) (fm rdb : Bool) (pre : List (Nat × Nat)) (f : Stream) (hf : f.Good)
    (hl : f.data.length < f.pos + 64) : bodyS k fm rdb pre f =
      (throwE .badDosHeader, { f with pos := f.pos + (slice f.data f.pos 64).length, eof := true, fail := true }) := by
  have e := dosS_short f hf hl
  have e1 : bodyS k fm rdb pre f = (dosS >>= fun dos => readPeS k fm pre dos >>= fun p =>
      if rdb then (loadDebugS p >>= fun d => pure { p with debugData := d }) else pure p) f := rfl
  rw [e1, andThen_error (e := .exn .badDosHeader) (by rw [e]; rfl), e]
  rfl

/-- C79: a file with less than 64 bytes behind the current position: the exception says so, and if the stream does not throw on
    failures it is usable afterwards, but it stands where reading stopped: the old position is only set while the
    stream is still failed. -/
theorem C79_short (k : Kind) (fm rdb : Bool) (pre : List (Nat × Nat)) (m : Mask) (f : Stream) (hf : f.Good)
    (hl : f.data.length < f.pos + 64) (hm : m.fail = false) :
    openS k fm rdb pre m f = (throwE .badDosHeader, { f with pos := f.pos + (slice f.data f.pos 64).length }) := by
  rw [openS_good k fm rdb pre m f hf, bodyS_short k fm rdb pre f hf hl]
  have e : ({ f with pos := f.pos + (slice f.data f.pos 64).length, eof := true, fail := true } : Stream).restore m f.pos =
      (.ok (), { f with pos := f.pos + (slice f.data f.pos 64).length }) := by
    unfold Stream.restore Stream.seekg
    simp only [if_true]
    unfold Mask.hits
    rw [hm]
    simp only [Bool.and_false, Bool.false_and, Bool.or_false, Bool.false_eq_true, if_false]
    obtain ⟨d, s, p, e, l⟩ := f
    obtain ⟨h1, h2⟩ := hf
    dsimp only at h1 h2
    subst h1 h2
    rfl
  rw [e]
  rfl

/-- C79: if the stream throws on failures, the same file is reported by the stream's own exception instead of the library's, and
    the stream stays failed. -/
theorem C79_short_masked (k : Kind) (fm rdb : Bool) (pre : List (Nat × Nat)) (m : Mask) (f : Stream) (hf : f.Good)
    (hl : f.data.length < f.pos + 64) (hm : m.fail = true) :
    (openS k fm rdb pre m f).1 = throwE .iosFailure ∧ (openS k fm rdb pre m f).2.fail = true := by
  rw [openS_good k fm rdb pre m f hf, bodyS_short k fm rdb pre f hf hl]
  have e : ({ f with pos := f.pos + (slice f.data f.pos 64).length, eof := true, fail := true } : Stream).restore m f.pos =
      (throwE .iosFailure, { f with pos := f.pos + (slice f.data f.pos 64).length, eof := false, fail := true }) := by
    unfold Stream.restore Stream.seekg
    simp only [if_true]
    unfold Mask.hits
    rw [hm]
    simp
  rw [e]
  exact ⟨rfl, rfl⟩

theorem open_ok (k : Kind) (fm rdb : Bool) (pre : List (Nat × Nat)) (m : Mask) (f g : Stream) (hf : f.Good) (p : Image)
    (h : openS k fm rdb pre m f = (.ok p, g)) : f.pos + 64 ≤ f.data.length ∧ bodyR k fm rdb pre f = .ok p := by
  by_cases hl : f.data.length < f.pos + 64
  · rw [openS_good k fm rdb pre m f hf, bodyS_short k fm rdb pre f hf hl] at h
    dsimp only at h
    generalize Stream.restore _ m _ = z at h
    obtain ⟨z1, z2⟩ := z
    cases z1 <;> cases h
  · obtain ⟨b1, b2, b3, b4⟩ := body_at k fm rdb pre f hf (by omega)
    refine ⟨by omega, ?_⟩
    rw [openS_good k fm rdb pre m f hf, b1] at h
    generalize bodyR k fm rdb pre f = y at h
    generalize Stream.restore _ m _ = z at h
    obtain ⟨z1, z2⟩ := z
    cases y with
    | ok y =>
      cases z1 with
      | ok _ => cases h; rfl
      | error e => cases h
    | error e =>
      cases e with
      | ub u => cases h
      | exn e => cases z1 <;> cases h

/-- C79: an image that was read without its debug data leaves the stream as it was. -/
theorem C79_success (k : Kind) (fm : Bool) (pre : List (Nat × Nat)) (m : Mask) (f g : Stream) (hf : f.Good) (p : Image)
    (h : openS k fm false pre m f = (.ok p, g)) : g = f := by
  obtain ⟨hl, hb⟩ := open_ok k fm false pre m f g hf p h
  have e := open_restored k fm false pre m f hf hl (fun e he => by rw [hb] at he; cases he)
    (fun u hu => by rw [hb] at hu; cases hu) (fun h => by cases h)
  rw [e] at h
  exact (congrArg Prod.snd h).symm

theorem coreRest_dos (k : Kind) (fm : Bool) (pre : List (Nat × Nat)) (file dos : Bytes) (f : Stream) (x : Image × Stream)
    (h : coreRest k fm pre file dos f = .ok x) : x.1.dos = slice dos 0 60 ∧ x.1.lfanew = rd 4 dos 60 := by
  unfold coreRest at h
  dsimp only at h
  obtain ⟨_, -, h⟩ := bind_ok_iff.1 h
  obtain ⟨_, -, h⟩ := bind_ok_iff.1 h
  obtain ⟨_, -, h⟩ := bind_ok_iff.1 h
  obtain ⟨_, -, h⟩ := bind_ok_iff.1 h
  obtain ⟨_, -, h⟩ := bind_ok_iff.1 h
  obtain ⟨_, -, h⟩ := bind_ok_iff.1 h
  obtain ⟨_, -, h⟩ := bind_ok_iff.1 h
  obtain ⟨_, -, h⟩ := bind_ok_iff.1 h
  cases h
  exact ⟨rfl, rfl⟩

/-- C79: an image that was read with its debug data leaves the stream as it was, provided the raw data that the records of the
    debug directory name lies in the file. -/
theorem C79_success_debug_partial (k : Kind) (fm rdb : Bool) (pre : List (Nat × Nat)) (m : Mask) (f g : Stream) (hf : f.Good) (p : Image)
    (h : openS k fm rdb pre m f = (.ok p, g)) (hd : DebugIn f.data p) : g = f := by
  obtain ⟨hl, hb⟩ := open_ok k fm rdb pre m f g hf p h
  have e := open_restored k fm rdb pre m f hf hl (fun e he => by rw [hb] at he; cases he)
    (fun u hu => by rw [hb] at hu; cases hu) (fun hr x hx _ => by
      subst hr
      unfold bodyR at hb
      rw [hx, ok_bind, if_pos rfl] at hb
      obtain ⟨d, -, hb⟩ := bind_ok_iff.1 hb
      cases hb
      exact hd)
  rw [e] at h
  exact (congrArg Prod.snd h).symm

/-- C79: an exception of the library that does not say that the file is too short leaves the stream as it was. -/
theorem C79_exception_partial (k : Kind) (fm rdb : Bool) (pre : List (Nat × Nat)) (m : Mask) (f g : Stream) (hf : f.Good)
    (hl : f.pos + 64 ≤ f.data.length) (e : Err) (h : openS k fm rdb pre m f = (throwE e, g)) (he : e ∉ shortErrs)
    (hi : e ≠ .iosFailure) : g = f := by
  obtain ⟨b1, b2, b3, b4⟩ := body_at k fm rdb pre f hf hl
  have hb : bodyR k fm rdb pre f = throwE e := by
    rw [openS_good k fm rdb pre m f hf, b1] at h
    have hz : ∀ (g : Stream) (o : Int), (g.restore m o).1 = .ok () ∨ (g.restore m o).1 = throwE .iosFailure := by
      intro g o
      unfold Stream.restore
      dsimp only
      split
      · exact .inr rfl
      · exact .inl rfl
    have hz1 := hz (bodyS k fm rdb pre f).2 f.pos
    generalize bodyR k fm rdb pre f = y at h
    generalize Stream.restore _ m _ = z at h hz1
    obtain ⟨z1, z2⟩ := z
    cases y with
    | ok y =>
      cases z1 with
      | ok _ => cases h
      | error e' =>
        rcases hz1 with hz1 | hz1
        · cases hz1
        · cases hz1
          cases h
          exact absurd rfl hi
    | error e' =>
      cases e' with
      | ub u => cases h
      | exn e' =>
        cases z1 with
        | ok _ => cases h; rfl
        | error e' =>
          rcases hz1 with hz1 | hz1
          · cases hz1
          · cases hz1
            cases h
            exact absurd rfl hi
  have e1 := open_restored k fm rdb pre m f hf hl (fun e' he' => by rw [hb] at he'; cases he'; exact he)
    (fun u hu => by rw [hb] at hu; cases hu) (fun hr x hx hn => by
      subst hr
      exfalso
      unfold bodyR at hb
      rw [hx, ok_bind, if_pos rfl] at hb
      rw [hx, ok_bind] at hn
      generalize loadDebug x.1 x.2 = y at hb hn
      cases y with
      | ok y => cases hb
      | error y => cases hb; exact hn e rfl)
  rw [e1] at h
  exact (congrArg Prod.snd h).symm

/-- The DOS header is the one at the current position, the rest is found by its offsets from the beginning of the stream. -/
theorem C79_position (k : Kind) (fm rdb : Bool) (pre : List (Nat × Nat)) (m : Mask) (f g : Stream) (hf : f.Good) (p : Image)
    (h : openS k fm rdb pre m f = (.ok p, g)) : p.dos = slice f.data f.pos 60 ∧ p.lfanew = rd 4 f.data (f.pos + 60) ∧
      rd 4 f.data p.lfanew = 0x4550 := by
  obtain ⟨hl, hb⟩ := open_ok k fm rdb pre m f g hf p h
  unfold bodyR at hb
  obtain ⟨x, hx, hb⟩ := bind_ok_iff.1 hb
  unfold coreR at hx
  obtain ⟨_, -, hx⟩ := bind_ok_iff.1 hx
  have hx1 := coreRest_dos k fm pre _ _ _ _ hx
  rw [slice_slice (by decide), Nat.add_zero, rd_of_slice _ (by decide)] at hx1
  have e : p.dos = x.1.dos ∧ p.lfanew = x.1.lfanew := by
    cases rdb with
    | false => cases hb; exact ⟨rfl, rfl⟩
    | true =>
      obtain ⟨d, -, hb⟩ := bind_ok_iff.1 hb
      cases hb
      exact ⟨rfl, rfl⟩
  rw [e.1, e.2]
  refine ⟨hx1.1, hx1.2, ?_⟩
  rw [hx1.2]
  unfold coreRest at hx
  obtain ⟨y, hy, -⟩ := bind_ok_iff.1 hx
  have ef : ({ f with pos := f.pos + 64 } : Stream) = st f.data f.strict (f.pos + 64) := by
    obtain ⟨d, s, p, e, l⟩ := f
    obtain ⟨h1, h2⟩ := hf
    dsimp only at h1 h2
    subst h1 h2
    rfl
  rw [ef, rd_of_slice _ (by decide)] at hy
  obtain ⟨-, -, -, hh, hs, -, -⟩ := (loadNt_iff (rd_lt 4 _ _)).1 hy
  rw [hh, ntOf] at hs
  rw [readDirs_signature] at hs
  have e9 : (decNt k (slice f.data (rd 4 f.data (f.pos + 60)) k.sizeofNtBase) pre).signature =
    rd 4 (slice f.data (rd 4 f.data (f.pos + 60)) k.sizeofNtBase) 0 := by simp only [decNt]
  rw [e9, rd_of_slice _ (by cases k <;> decide), Nat.add_zero] at hs
  exact hs

/-- C79: reading from a good stream at its beginning gives the image that `load` gives for its contents. -/
theorem C79_load (k : Kind) (strict fm rdb : Bool) (pre : List (Nat × Nat)) (file : Bytes) :
    (openS k fm rdb pre {} { data := file, strict := strict, pos := 0 }).1 = load k strict fm rdb pre file := by
  have hf : ({ data := file, strict := strict, pos := 0 } : Stream).Good := ⟨rfl, rfl⟩
  rw [openS_good k fm rdb pre {} _ hf]
  have hz : ∀ (g : Stream) (o : Int), (g.restore {} o).1 = .ok () := by
    intro g o
    unfold Stream.restore Mask.hits
    simp
  have hres : ∀ (y : Res Image × Stream), (match y.1 with
      | .error (.ub u) => (.error (.ub u), y.2)
      | v => match (y.2.restore {} (0 : Nat)).1 with
        | .ok _ => (v, (y.2.restore {} (0 : Nat)).2)
        | .error e => (.error e, (y.2.restore {} (0 : Nat)).2) : Res Image × Stream).1 = y.1 := by
    intro y
    rw [hz]
    obtain ⟨y1, y2⟩ := y
    cases y1 with
    | ok y => rfl
    | error e => cases e <;> rfl
  rw [hres]
  by_cases hl : file.length < 64
  · rw [bodyS_short k fm rdb pre _ hf (by dsimp only; omega)]
    unfold load
    rw [loadCore_eq]
    unfold readDosHeader throwIf
    rw [if_pos hl]
    rfl
  · rw [(body_at k fm rdb pre _ hf (by dsimp only; omega)).1]
    unfold bodyR load
    rw [loadCore_eq]
    unfold readDosHeader coreR
    have e5 : throwIf (file.length < 64) Err.badDosHeader = .ok () := if_neg hl
    rw [e5]
    dsimp only
    generalize throwIf (rd 2 file 0 ≠ 23117) Err.badDosHeader = y
    cases y <;> rfl

/-- `get_pe_type` behind the DOS header. -/
def typeRest (dos : Bytes) (f : Stream) : Res (Kind × Stream) :=
  throwIf ((f.seekg (int32 (rd 4 dos 60))).fail = true) .imageNtHeadersNotFound >>= fun _ =>
    (f.seekg (int32 (rd 4 dos 60))).readOr 120 .errorReadingImageNtHeaders >>= fun x =>
      throwIf (rd 4 x.1 0 ≠ 0x4550) .peSignatureIncorrect >>= fun _ =>
        throwIf (rd 2 x.1 24 ≠ 0x10b ∧ rd 2 x.1 24 ≠ 0x20b) .peSignatureIncorrect >>= fun _ =>
          .ok (if rd 2 x.1 24 = 0x20b then .pe64 else .pe32, x.2)

/-- `typeBodyS` behind the DOS header. -/
def typeRestS (dos : Bytes) : SM Kind := do
  SM.seekg (int32 (rd 4 dos 60))
  let f ← SM.stream
  SM.lift (throwIf (f.fail = true) .imageNtHeadersNotFound)
  let b ← SM.readOr 120 .errorReadingImageNtHeaders
  SM.lift (throwIf (rd 4 b 0 ≠ 0x4550) .peSignatureIncorrect)
  SM.lift (throwIf (rd 2 b 24 ≠ 0x10b ∧ rd 2 b 24 ≠ 0x20b) .peSignatureIncorrect)
  pure (if rd 2 b 24 = 0x20b then .pe64 else .pe32)

theorem sim_type (D : Bytes) (strict : Bool) (dos : Bytes) : Sim D strict shortErrs (typeRestS dos) (typeRest dos) :=
  Sim.congr (fun _ => rfl) (sim_seek (by simp [shortErrs]) (sim_bind (sim_readOr 120 (by simp [shortErrs])) fun _ =>
    sim_lift_bind fun _ => sim_lift_bind fun _ => sim_pure _))

/-- What `get_pe_type` finds in a good stream that has 64 bytes left. -/
def typeR (f : Stream) : Res (Kind × Stream) :=
  throwIf (rd 2 f.data f.pos ≠ 0x5a4d) .badDosHeader >>= fun _ => typeRest (slice f.data f.pos 64) { f with pos := f.pos + 64 }

theorem type_at (f : Stream) (hf : f.Good) (hl : f.pos + 64 ≤ f.data.length) :
    SimAt f.data f.strict shortErrs (typeBodyS f) (typeR f) := by
  have e := dosS_long f hf hl
  have e0 : typeBodyS f = (dosS >>= typeRestS) f := rfl
  rw [e0]
  unfold typeR
  by_cases hm : rd 2 f.data f.pos ≠ 0x5a4d
  · have e5 : throwIf (rd 2 f.data f.pos ≠ 0x5a4d) Err.badDosHeader = throwE .badDosHeader := if_pos hm
    rw [e5] at e ⊢
    rw [andThen_error (e := .exn .badDosHeader) (by rw [e]; rfl), e]
    exact ⟨rfl, rfl, rfl, .inl hf⟩
  · have e5 : throwIf (rd 2 f.data f.pos ≠ 0x5a4d) Err.badDosHeader = .ok () := if_neg hm
    rw [e5] at e ⊢
    rw [andThen_ok (a := slice f.data f.pos 64) (by rw [e]; rfl)]
    exact sim_type f.data f.strict _ _ hf rfl rfl

/-- `get_pe_type` on a good stream in terms of its body. -/
theorem typeS_good (m : Mask) (f : Stream) (hf : f.Good) :
    typeS m f = match (typeBodyS f).1 with
      | .error (.ub u) => (.error (.ub u), (typeBodyS f).2)
      | v => match ((typeBodyS f).2.restore' m f.pos).1 with
        | .ok _ => (v, ((typeBodyS f).2.restore' m f.pos).2)
        | .error e => (.error e, ((typeBodyS f).2.restore' m f.pos).2) := by
  unfold typeS
  rw [tellg_good f hf]
  dsimp only
  rw [hits_good m f hf]
  simp only [Bool.false_eq_true, if_false]
  generalize typeBodyS f = y
  obtain ⟨y1, y2⟩ := y
  cases y1 with
  | ok y => rfl
  | error e => cases e <;> rfl

theorem restore'_good (m : Mask) (f g : Stream) (hf : f.Good) (hg : g.Good) (hd : g.data = f.data) (hs : g.strict = f.strict)
    (hp : f.pos ≤ f.data.length) : g.restore' m f.pos = (.ok (), f) := by
  unfold Stream.restore'
  rw [hits_good m g hg, seek_back f g hf hg hd hs hp, good_eta f hf]
  simp only [Bool.false_eq_true, if_false]

/-- `get_pe_type` leaves the stream as it was if its body does not find the file too short. -/
theorem type_restored (m : Mask) (f : Stream) (hf : f.Good) (hl : f.pos + 64 ≤ f.data.length)
    (he : ∀ e, typeR f = throwE e → e ∉ shortErrs) (hub : ∀ u, typeR f ≠ ubE u) :
    (typeS m f).2 = f ∧ (typeS m f).1 = (typeR f >>= fun x => .ok x.1) := by
  have h := type_at f hf hl
  rw [typeS_good m f hf]
  generalize typeR f = x at h he hub
  obtain ⟨c1, c2, c3⟩ := h
  cases x with
  | ok x =>
    obtain ⟨d1, d2⟩ := c3
    rw [restore'_good m f _ hf (by rw [d1]; exact d2) c1 c2 (by omega), d1]
    exact ⟨rfl, rfl⟩
  | error e =>
    cases e with
    | ub u => exact absurd rfl (hub u)
    | exn e =>
      obtain ⟨d1, d2⟩ := c3
      have hg : (typeBodyS f).2.Good := by
        rcases d2 with d2 | ⟨t, ht, d2⟩
        · exact d2
        · cases d2
          exact absurd ht (he e rfl)
      rw [restore'_good m f _ hf hg c1 c2 (by omega), d1]
      exact ⟨rfl, rfl⟩

theorem type_short (f : Stream) (hf : f.Good) (hl : f.data.length < f.pos + 64) : typeBodyS f =
      (throwE .badDosHeader, { f with pos := f.pos + (slice f.data f.pos 64).length, eof := true, fail := true }) := by
  have e := dosS_short f hf hl
  have e0 : typeBodyS f = (dosS >>= typeRestS) f := rfl
  rw [e0, andThen_error (e := .exn .badDosHeader) (by rw [e]; rfl), e]
  rfl

theorem typeS_ok (m : Mask) (f g : Stream) (hf : f.Good) (k : Kind) (h : typeS m f = (.ok k, g)) :
    g = f ∧ ∃ x, typeR f = .ok (k, x) := by
  by_cases hl : f.data.length < f.pos + 64
  · rw [typeS_good m f hf, type_short f hf hl] at h
    dsimp only at h
    generalize Stream.restore' _ m _ = z at h
    obtain ⟨z1, z2⟩ := z
    cases z1 <;> cases h
  · have ht := type_at f hf (by omega)
    have hr := type_restored m f hf (by omega)
    rw [typeS_good m f hf] at h hr
    generalize typeR f = x at *
    obtain ⟨c1, c2, c3⟩ := ht
    cases x with
    | ok x =>
      obtain ⟨r1, r2⟩ := hr (fun e h => by cases h) (fun u h => by cases h)
      rw [h] at r1 r2
      refine ⟨r1, x.2, ?_⟩
      cases r2
      rfl
    | error e =>
      rw [c3.1] at h
      generalize Stream.restore' _ m _ = z at h
      obtain ⟨z1, z2⟩ := z
      cases e with
      | ub u => cases h
      | exn e => cases z1 <;> cases h

/-- C79: `get_pe_type` leaves the stream as it was if it finds a PE file. -/
theorem C79_type_success (m : Mask) (f g : Stream) (hf : f.Good) (k : Kind) (h : typeS m f = (.ok k, g)) : g = f :=
  (typeS_ok m f g hf k h).1

/-- C79: what the factory returns without debug data leaves the stream as it was. -/
theorem C79_factory (fm : Bool) (m : Mask) (f g : Stream) (hf : f.Good) (p : Image)
    (h : createS fm false m f = (.ok p, g)) : g = f := by
  have e : createS fm false m = (typeS m >>= fun k => openS k fm false (List.replicate 16 (0, 0)) m) := rfl
  rw [e] at h
  generalize ht : typeS m f = y at h
  obtain ⟨y1, y2⟩ := y
  cases y1 with
  | error e' => rw [andThen_error (e := e') (by rw [ht])] at h; cases h
  | ok k =>
    rw [andThen_ok ht] at h
    obtain ⟨e1, -⟩ := typeS_ok m f y2 hf k ht
    subst e1
    exact C79_success k fm _ m y2 g hf p h

theorem typeS_peType (strict : Bool) (file : Bytes) :
    (typeS {} { data := file, strict := strict, pos := 0 }).1 = peType strict file := by
  have hf : ({ data := file, strict := strict, pos := 0 } : Stream).Good := ⟨rfl, rfl⟩
  rw [typeS_good {} _ hf]
  have hz : ∀ (g : Stream) (o : Int), (g.restore' {} o).1 = .ok () := by
    intro g o
    unfold Stream.restore' Mask.hits
    simp
  have hres : ∀ (y : Res Kind × Stream), (match y.1 with
      | .error (.ub u) => (.error (.ub u), y.2)
      | v => match (y.2.restore' {} (0 : Nat)).1 with
        | .ok _ => (v, (y.2.restore' {} (0 : Nat)).2)
        | .error e => (.error e, (y.2.restore' {} (0 : Nat)).2) : Res Kind × Stream).1 = y.1 := by
    intro y
    rw [hz]
    obtain ⟨y1, y2⟩ := y
    cases y1 with
    | ok y => rfl
    | error e => cases e <;> rfl
  rw [hres]
  by_cases hl : file.length < 64
  · rw [type_short _ hf (by dsimp only; omega)]
    unfold peType readDosHeader throwIf
    rw [if_pos hl]
    rfl
  · have h := type_at { data := file, strict := strict, pos := 0 } hf (by dsimp only; omega)
    have e1 : peType strict file = (typeR { data := file, strict := strict, pos := 0 } >>= fun x => .ok x.1) := by
      unfold peType readDosHeader typeR typeRest
      have e5 : throwIf (file.length < 64) Err.badDosHeader = .ok () := if_neg hl
      rw [e5]
      simp only [bind_assoc, ok_bind]
    rw [e1]
    generalize typeR { data := file, strict := strict, pos := 0 } = x at h
    obtain ⟨-, -, h⟩ := h
    cases x with
    | ok x => rw [h.1]; rfl
    | error e => rw [h.1]; rfl

/-- C79: the factory reading from a good stream at its beginning gives what `createPe` gives for its contents. -/
theorem C79_create (strict fm rdb : Bool) (file : Bytes) :
    (createS fm rdb {} { data := file, strict := strict, pos := 0 }).1 = createPe strict fm rdb file := by
  have hf : ({ data := file, strict := strict, pos := 0 } : Stream).Good := ⟨rfl, rfl⟩
  have e : createS fm rdb {} = (typeS {} >>= fun k => openS k fm rdb (List.replicate 16 (0, 0)) {}) := rfl
  unfold createPe
  rw [e, ← typeS_peType]
  generalize ht : typeS {} { data := file, strict := strict, pos := 0 } = y
  obtain ⟨y1, y2⟩ := y
  cases y1 with
  | error e' => rw [andThen_error (e := e') (by rw [ht])]; rfl
  | ok k =>
    obtain ⟨e1, -⟩ := typeS_ok {} _ y2 hf k ht
    rw [andThen_ok ht, e1, C79_load]
    rfl

/-- C79: a stream that has failed before, as after opening a file that does not exist: the library decides about bytes that were
    never read. -/
theorem C79_failed_stream (k : Kind) (fm rdb : Bool) (pre : List (Nat × Nat)) (m : Mask) (f : Stream) (he : f.eof = false)
    (hf : f.fail = true) (hm : m.fail = false) :
    openS k fm rdb pre m f = (ubE .uninit, f) ∧ typeS m f = (ubE .uninit, f) := by
  obtain ⟨d, s, p, e, l⟩ := f
  dsimp only at he hf
  subst he hf
  have ht : ({ data := d, strict := s, pos := p, eof := false, fail := true } : Stream).tellg =
      (-1, { data := d, strict := s, pos := p, eof := false, fail := true }) := by
    unfold Stream.tellg
    simp
  have hh : m.hits { data := d, strict := s, pos := p, eof := false, fail := true } = false := by
    unfold Mask.hits
    rw [hm]
    simp
  have hd : dosS { data := d, strict := s, pos := p, eof := false, fail := true } =
      (ubE .uninit, { data := d, strict := s, pos := p, eof := false, fail := true }) := rfl
  constructor
  · unfold openS
    rw [ht]
    dsimp only
    rw [hh]
    have e1 : bodyS k fm rdb pre { data := d, strict := s, pos := p, eof := false, fail := true } =
        (ubE .uninit, { data := d, strict := s, pos := p, eof := false, fail := true }) := by
      show (dosS >>= _) _ = _
      rw [andThen_error (e := .ub .uninit) (by rw [hd]; rfl), hd]
      rfl
    rw [e1]
    rfl
  · unfold typeS
    rw [ht]
    dsimp only
    rw [hh]
    have e1 : typeBodyS { data := d, strict := s, pos := p, eof := false, fail := true } =
        (ubE .uninit, { data := d, strict := s, pos := p, eof := false, fail := true }) := by
      show (dosS >>= _) _ = _
      rw [andThen_error (e := .ub .uninit) (by rw [hd]; rfl), hd]
      rfl
    rw [e1]
    rfl

/-- C79: a stream that has reached its end is refused, and usable again afterwards. -/
theorem C79_ended_stream (k : Kind) (fm rdb : Bool) (pre : List (Nat × Nat)) (f : Stream) (he : f.eof = true) :
    openS k fm rdb pre {} f = (throwE .badPeFile, { f with eof := false, fail := false }) := by
  obtain ⟨d, s, p, e, l⟩ := f
  dsimp only at he
  subst he
  have ht : ({ data := d, strict := s, pos := p, eof := true, fail := l } : Stream).tellg =
      (-1, { data := d, strict := s, pos := p, eof := true, fail := true }) := by
    unfold Stream.tellg
    simp
  have hd : dosS { data := d, strict := s, pos := p, eof := true, fail := true } =
      (throwE .badPeFile, { data := d, strict := s, pos := p, eof := true, fail := true }) := rfl
  unfold openS
  rw [ht]
  have e1 : bodyS k fm rdb pre { data := d, strict := s, pos := p, eof := true, fail := true } =
      (throwE .badPeFile, { data := d, strict := s, pos := p, eof := true, fail := true }) := by
    show (dosS >>= _) _ = _
    rw [andThen_error (e := .exn .badPeFile) (by rw [hd]; rfl), hd]
    rfl
  dsimp only
  rw [e1]
  rfl


/-! Examples. -/

/-- A file with a section of 28 bytes, a record of the debug directory that names 4 bytes at the offset `ptr`. -/
def dbgTail (ptr : Nat) : Bytes :=
  [0x4d, 0x5a] ++ zeros 58 ++ leBytes 4 64 ++ encFields (ntFields .pe32 { tinyNt 1 1088 288 with numRva := 7, sizeOptHdr := 96 + 56 })
    ++ zeros 48 ++ leBytes 4 1024 ++ leBytes 4 28 ++ encSec (tinySec 28 1024 28 288) ++ zeros 8
    ++ (leBytes 4 0 ++ leBytes 4 0 ++ leBytes 4 0 ++ leBytes 4 2 ++ leBytes 4 4 ++ leBytes 4 0 ++ leBytes 4 ptr)

example : (dbgTail 0).length = 316 := by decide +kernel

/-- C79: the debug data of `dbgTail 312` is the last part of the file. -/
example : ∃ p, (openS .pe32 false true zeroDirs { eof := true, fail := true } { data := dbgTail 312, strict := true, pos := 0 }).1 =
    .ok p ∧ DebugIn (dbgTail 312) p ∧ p.debugData.length = 1 := by
  obtain ⟨p, h1, h2⟩ := exists_of_okAnd
    (x := (openS .pe32 false true zeroDirs { eof := true, fail := true } { data := dbgTail 312, strict := true, pos := 0 }).1)
    (f := fun p => decide (p.debugData.length = 1) && okAnd (p.nt.getDirRva dirDebug) (fun a => a == 1024) &&
      okAnd (p.nt.getDirSize dirDebug) (fun a => a == 28) &&
      okAnd (p.readT 28 1024 .virt true) (fun d => rd 4 d 24 + rd 4 d 16 == 316) && decide ((dbgTail 312).length = 316))
    (by decide +kernel)
  simp only [Bool.and_eq_true, decide_eq_true_eq] at h2
  obtain ⟨⟨⟨⟨h2, h3⟩, h4⟩, h5⟩, h6⟩ := h2
  refine ⟨p, h1, ?_, h2⟩
  intro rva size i d hr hs hi hd _ _
  rw [hr] at h3
  rw [hs] at h4
  have e1 : rva = 1024 := by simpa [okAnd] using h3
  have e2 : size = 28 := by simpa [okAnd] using h4
  subst e1 e2
  have e3 : i = 0 := by
    have : w32 (1024 + 28) = 1052 := by decide
    omega
  subst e3
  rw [Nat.mul_zero, Nat.add_zero] at hd
  rw [hd] at h5
  have e4 : rd 4 d 24 + rd 4 d 16 = 316 := by simpa [okAnd] using h5
  rw [h6]
  omega

/-- C79 fails for debug data that is cut off: the image is returned, but the stream stands at the end of the file. -/
theorem C79_debug_moves : ∃ file p, openS .pe32 false true zeroDirs {} { data := file, strict := true, pos := 0 } =
    (.ok p, { data := file, strict := true, pos := file.length }) ∧ file.length ≠ 0 := by
  obtain ⟨p, h1, h2⟩ := exists_of_okAnd
    (x := (openS .pe32 false true zeroDirs {} { data := dbgTail 314, strict := true, pos := 0 }).1)
    (f := fun _ => decide ((openS .pe32 false true zeroDirs {} { data := dbgTail 314, strict := true, pos := 0 }).2 =
      { data := dbgTail 314, strict := true, pos := (dbgTail 314).length }) && decide ((dbgTail 314).length ≠ 0))
    (by decide +kernel)
  simp only [Bool.and_eq_true, decide_eq_true_eq] at h2
  exact ⟨dbgTail 314, p, Prod.ext h1 h2.1, h2.2⟩

/-- C79 fails for that file if the stream throws on failures: an image was read, but the caller gets the stream's exception. -/
theorem C79_debug_masked : ∃ file p, load .pe32 true false true zeroDirs file = .ok p ∧
    (openS .pe32 false true zeroDirs { fail := true } { data := file, strict := true, pos := 0 }).1 = throwE .iosFailure := by
  obtain ⟨p, h1, -⟩ := exists_of_okAnd (x := load .pe32 true false true zeroDirs (dbgTail 314)) (f := fun _ => true)
    (by decide +kernel)
  have h2 : (match (openS .pe32 false true zeroDirs { fail := true } { data := dbgTail 314, strict := true, pos := 0 }).1 with
    | .error (.exn .iosFailure) => true
    | _ => false) = true := by decide +kernel
  refine ⟨dbgTail 314, p, h1, ?_⟩
  generalize (openS .pe32 false true zeroDirs { fail := true } { data := dbgTail 314, strict := true, pos := 0 }).1 = y at h2
  split at h2
  · rfl
  · cases h2

/-- C79 fails for a file that ends within the NT headers: the position is lost. -/
theorem C79_truncated : ∃ file, openS .pe32 false false zeroDirs {} { data := file, strict := true, pos := 0 } =
    (throwE .errorReadingImageNtHeaders, { data := file, strict := true, pos := file.length }) ∧ file.length ≠ 0 := by
  have h : (match (openS .pe32 false false zeroDirs {} { data := tinyGood.take 100, strict := true, pos := 0 }) with
    | (.error (.exn .errorReadingImageNtHeaders), g) => decide (g = { data := tinyGood.take 100, strict := true, pos := 100 })
    | _ => false) = true ∧ (tinyGood.take 100).length = 100 := by decide +kernel
  refine ⟨tinyGood.take 100, ?_, by rw [h.2]; decide⟩
  rw [h.2]
  have h1 := h.1
  generalize openS .pe32 false false zeroDirs {} { data := tinyGood.take 100, strict := true, pos := 0 } = y at h1
  split at h1
  · rw [of_decide_eq_true h1]; rfl
  · cases h1

/-- C79: a PE file that is embedded in another file cannot be opened from where it begins: 16 zero bytes before a good file, with
    the stream set behind them. -/
theorem C79_embedded : (∃ p, load .pe32 true false false zeroDirs tinyGood = .ok p) ∧
    ∀ p g, openS .pe32 false false zeroDirs {} { data := zeros 16 ++ tinyGood, strict := true, pos := 16 } ≠ (.ok p, g) := by
  constructor
  · obtain ⟨p, h1, -⟩ := exists_of_okAnd (x := load .pe32 true false false zeroDirs tinyGood) (f := fun _ => true)
      (by decide +kernel)
    exact ⟨p, h1⟩
  · intro p g h
    have := C79_position _ _ _ _ _ _ _ ⟨rfl, rfl⟩ p h
    rw [this.2.1] at this
    exact absurd this.2.2 (by decide +kernel)

/-- C79: a file with a wrong signature, at a position other than the beginning. -/
example : let f : Stream := { data := (tinyGood.set 64 0).take 64 ++ tinyGood.set 64 0, strict := true, pos := 64 }
    f.Good ∧ f.pos + 64 ≤ f.data.length ∧ (openS .pe32 false true zeroDirs { fail := true } f).1 = throwE .peSignatureIncorrect ∧
      Err.peSignatureIncorrect ∉ shortErrs := by
  have h : (match (openS .pe32 false true zeroDirs { fail := true }
      { data := (tinyGood.set 64 0).take 64 ++ tinyGood.set 64 0, strict := true, pos := 64 }).1 with
    | .error (.exn .peSignatureIncorrect) => true
    | _ => false) = true := by decide +kernel
  refine ⟨⟨rfl, rfl⟩, by decide +kernel, ?_, by decide⟩
  generalize (openS .pe32 false true zeroDirs { fail := true } _).1 = y at h
  split at h
  · rfl
  · cases h

/-- C79: a good file, and a stream that throws in any state that is not good. -/
example : let f : Stream := { data := tinyGood, strict := true, pos := 0 }
    f.Good ∧ ∃ p, openS .pe32 false false zeroDirs { eof := true, fail := true } f = (.ok p, f) := by
  refine ⟨⟨rfl, rfl⟩, ?_⟩
  obtain ⟨p, h1, h2⟩ := exists_of_okAnd
    (x := (openS .pe32 false false zeroDirs { eof := true, fail := true } { data := tinyGood, strict := true, pos := 0 }).1)
    (f := fun _ => true) (by decide +kernel)
  exact ⟨p, Prod.ext h1 (C79_success _ _ _ _ _ _ ⟨rfl, rfl⟩ p (Prod.ext h1 rfl))⟩

example : ∃ p, (createS false false { eof := true, fail := true } { data := tinyGood, strict := true, pos := 0 }).1 = .ok p := by
  obtain ⟨p, h1, h2⟩ := exists_of_okAnd
    (x := (createS false false { eof := true, fail := true } { data := tinyGood, strict := true, pos := 0 }).1)
    (f := fun _ => true) (by decide +kernel)
  exact ⟨p, h1⟩

/-- C79: a short and an ended stream. -/
example : let f : Stream := { data := tinyGood.take 70, strict := true, pos := 10 }
    f.Good ∧ f.data.length < f.pos + 64 ∧ f.pos + (slice f.data f.pos 64).length = 70 := by
  refine ⟨⟨rfl, rfl⟩, by decide +kernel, by decide +kernel⟩

end PE
