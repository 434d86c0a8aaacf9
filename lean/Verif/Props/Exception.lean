/-
C46: reading the exception directory.
-/
import Verif.Model.Exception
import Verif.Props.Load

namespace PE

/-- What a loaded image guarantees to everything that reads directories from it: see `loaded_readable`. -/
structure Readable (p : Image) : Prop where
  reads : ReadsBelow4G p
  dirs : p.nt.DirsOk
  rvas : ∀ d ∈ p.nt.dirs, d.1 < 4294967296
  base : p.nt.imageBase < 256 ^ p.kind.ptr

theorem imageOf_base (k : Kind) (fromMem : Bool) (pre : List (Nat × Nat)) (file : Bytes) :
    (imageOf k fromMem pre file).nt.imageBase < 256 ^ (imageOf k fromMem pre file).kind.ptr := by
  show (ntOf k pre file (rd 4 file 60)).imageBase < 256 ^ k.ptr
  unfold ntOf NtHdr.readDirs NtHdr.clampRva decNt
  dsimp only
  cases k
  · exact rd_lt 4 _ _
  · exact rd_lt 8 _ _

/-- Every loaded image is readable. -/
theorem loaded_readable {k : Kind} {strict fromMem dbg : Bool} {pre : List (Nat × Nat)} {file : Bytes} {p : Image}
    (hp : pre.length = 16) (hp' : ∀ d ∈ pre, d.1 < 2 ^ 32) (h : load k strict fromMem dbg pre file = .ok p) :
    Readable p := by
  unfold load at h
  obtain ⟨⟨q, f⟩, hq, h⟩ := bind_ok_iff.mp h
  obtain ⟨ok, rfl, -⟩ := loadCore_iff.mp hq
  have h1 := imageOf_reads ok
  have h2 := imageOf_dirs (k := k) (fromMem := fromMem) (file := file) hp
  have h3 := imageOf_dirs_lt (k := k) (fromMem := fromMem) (file := file) hp'
  have h4 := imageOf_base k fromMem pre file
  generalize imageOf k fromMem pre file = q at *
  dsimp only at h
  split at h
  · obtain ⟨d, -, h⟩ := bind_ok_iff.mp h
    replace h := Except.ok.inj h
    subst h
    exact ⟨⟨h1.hdr, h1.secs⟩, h2, h3, h4⟩
  · replace h := Except.ok.inj h
    subst h
    exact ⟨h1, h2, h3, h4⟩

theorem Readable.dirRva_lt {p : Image} (hp : Readable p) {id v : Nat} (h : p.nt.getDirRva id = .ok v) : v < 4294967296 := by
  unfold NtHdr.getDirRva at h
  split at h
  · simp at h
  · obtain ⟨x, hx, h⟩ := bind_ok_iff.mp h
    unfold NtHdr.dirAt at hx
    cases h
    split at hx
    · next y hy => cases hx; exact hp.rvas _ (List.mem_of_getElem? hy)
    · simp at hx

theorem excLoop_noUB {p : Image} (hp : Readable p) (pos : Nat) (hpos : pos + 12 < 4294967296) (r : Bytes) :
    NoUB (p.excLoop pos r) := by
  induction hm : 4294967296 - pos using Nat.strongRecOn generalizing pos r with
  | _ m ih =>
    have hw : w32 (pos + 12) = pos + 12 := Nat.mod_eq_of_lt hpos
    rw [Image.excLoop]
    split
    · refine NoUB.bind (NoUB.throwIf _ _) (fun _ _ => NoUB.bind (readT_noUB _ _ _ _ _) (fun u _ =>
        NoUB.bind (readT_noUB _ _ _ _ _) (fun nx hn => ?_)))
      rw [hw] at hn
      have hlt := readT_below hp.reads hpos hn
      rw [dif_pos (by rw [hw]; omega), hw]
      exact NoUB.bind (ih (4294967296 - (pos + 12)) (by omega) (pos + 12) hlt nx rfl) (fun _ _ => NoUB.ok _)
    · exact NoUB.ok _

theorem getExceptions_noUB {p : Image} (hp : Readable p) : NoUB p.getExceptions := by
  unfold Image.getExceptions
  refine NoUB.bind (hasDir_noUB hp.dirs.slots (by decide)) (fun b _ => ?_)
  split
  · refine NoUB.bind (getDir_noUB hp.dirs _).1 (fun rva hrva => NoUB.bind (dataLenFrom_noUB _ _ _ _ _) (fun n _ =>
      NoUB.bind (NoUB.throwIf _ _) (fun _ _ => NoUB.bind (NoUB.throwIf _ _) (fun _ _ =>
      NoUB.bind (readT_noUB _ _ _ _ _) (fun r hr => ?_)))))
    exact excLoop_noUB hp _ (readT_below hp.reads (hp.dirRva_lt hrva) hr) r
  · exact NoUB.ok _

/-- C46, safety: on every image loaded from any file the exception directory is read without leaving the buffers, in
    finitely many steps. -/
theorem C46_safe (k : Kind) (strict fromMem dbg : Bool) (pre : List (Nat × Nat)) (hp : pre.length = 16)
    (hp' : ∀ d ∈ pre, d.1 < 2 ^ 32) (file : Bytes) (p : Image) (h : load k strict fromMem dbg pre file = .ok p) (u : UB) :
    p.getExceptions ≠ .error (.ub u) :=
  getExceptions_noUB (loaded_readable hp hp' h) u

/-- The 12-byte RUNTIME_FUNCTION record number `i` of the directory at `rva`, as the image shows it. -/
def Image.RuntimeFunction (p : Image) (rva i : Nat) (beginA endA unwind : Nat) : Prop :=
  ∃ b, p.readT 12 (rva + 12 * i) .virt true = .ok b ∧ rd 4 b 0 = beginA ∧ rd 4 b 4 = endA ∧ rd 4 b 8 = unwind

/-- The entry agrees with the record and with the four bytes of unwind information it points to. -/
def ExcEntry.Describes (e : ExcEntry) (p : Image) (rva i : Nat) : Prop :=
  p.RuntimeFunction rva i e.beginAddr e.endAddr e.unwindAddr ∧
  ∃ u, p.readT 6 e.unwindAddr .virt true = .ok u ∧
    rd 1 u 0 = e.version + 8 * e.flags ∧ e.version < 8 ∧ rd 1 u 1 = e.prolog ∧ rd 1 u 2 = e.codes ∧
    rd 1 u 3 = e.frameReg + 16 * e.frameOff ∧ e.frameReg < 16

theorem and_shift_split (x k : Nat) : x = (x &&& (2 ^ k - 1)) + 2 ^ k * (x >>> k) := by
  rw [Nat.and_two_pow_sub_one_eq_mod, Nat.shiftRight_eq_div_pow]
  exact (Nat.mod_add_div x (2 ^ k)).symm

theorem excLoop_ok {p : Image} (hp : Readable p) (pos : Nat) (hpos : pos + 12 < 4294967296) (r : Bytes)
    (hr : p.readT 12 pos .virt true = .ok r) (l : List ExcEntry) (h : p.excLoop pos r = .ok l) :
    (∀ (i : Nat) (e : ExcEntry), l[i]? = some e → e.Describes p pos i ∧ e.beginAddr ≠ 0 ∧ e.beginAddr ≤ e.endAddr) ∧
    ∃ a b, p.RuntimeFunction pos l.length 0 a b := by
  induction hm : 4294967296 - pos using Nat.strongRecOn generalizing pos r l with
  | _ m ih =>
    have hw : w32 (pos + 12) = pos + 12 := Nat.mod_eq_of_lt hpos
    rw [Image.excLoop] at h
    split at h
    · next hne =>
      obtain ⟨hc, h⟩ := throwIf_bind_ok_iff.mp h
      obtain ⟨u, hu, h⟩ := bind_ok_iff.mp h
      obtain ⟨nx, hn, h⟩ := bind_ok_iff.mp h
      rw [hw] at hn
      have hlt := readT_below hp.reads hpos hn
      rw [dif_pos (by rw [hw]; omega), hw] at h
      obtain ⟨rest, hrest, h⟩ := bind_ok_iff.mp h
      cases h
      obtain ⟨i1, i2⟩ := ih (4294967296 - (pos + 12)) (by omega) (pos + 12) hlt nx hn rest hrest rfl
      constructor
      · intro i e he
        cases i with
        | zero =>
          simp only [List.getElem?_cons_zero, Option.some.injEq] at he
          subst he
          refine ⟨⟨⟨r, by simpa using hr, rfl, rfl, rfl⟩, u, hu, ?_, ?_, rfl, rfl, ?_, ?_⟩, hne, by
            simp only [ExcEntry.ofBytes]; omega⟩
          · exact and_shift_split _ 3
          · exact Nat.lt_of_le_of_lt Nat.and_le_right (by decide)
          · exact and_shift_split _ 4
          · exact Nat.lt_of_le_of_lt Nat.and_le_right (by decide)
        | succ i =>
          simp only [List.getElem?_cons_succ] at he
          obtain ⟨⟨⟨b, j1, j2⟩, j3⟩, j4⟩ := i1 i e he
          refine ⟨⟨⟨b, ?_, j2⟩, j3⟩, j4⟩
          rw [show pos + 12 * (i + 1) = pos + 12 + 12 * i by omega]; exact j1
      · obtain ⟨a, b, c, j1, j2⟩ := i2
        refine ⟨a, b, c, ?_, j2⟩
        rw [List.length_cons, show pos + 12 * (rest.length + 1) = pos + 12 + 12 * rest.length by omega]; exact j1
    · next hz =>
      cases h
      refine ⟨by simp, rd 4 r 4, rd 4 r 8, r, by simpa using hr, Decidable.not_not.mp hz, rfl, rfl⟩

/-- C46, contents: an image without exception directory gives the empty list. Otherwise the entries of the result are
    exactly the records from the start of the directory up to, excluding, the first record with begin address zero:
    entry `i` carries the three addresses of record `i` and the fields of the unwind information that record points
    to, and begins no later than it ends. -/
theorem C46_entries {p : Image} (hp : Readable p) {l : List ExcEntry} (h : p.getExceptions = .ok l) :
    (p.hasDir dirException = .ok false ∧ l = []) ∨
    ∃ rva, p.nt.getDirRva dirException = .ok rva ∧ rva % 4 = 0 ∧
      (∀ (i : Nat) (e : ExcEntry), l[i]? = some e → e.Describes p rva i ∧ e.beginAddr ≠ 0 ∧ e.beginAddr ≤ e.endAddr) ∧
      ∃ a b, p.RuntimeFunction rva l.length 0 a b := by
  unfold Image.getExceptions at h
  obtain ⟨b, hb, h⟩ := bind_ok_iff.mp h
  cases b with
  | false => left; cases h; exact ⟨hb, rfl⟩
  | true =>
    right
    obtain ⟨rva, hrva, h⟩ := bind_ok_iff.mp h
    obtain ⟨n, hn, h⟩ := bind_ok_iff.mp h
    obtain ⟨h1, h⟩ := throwIf_bind_ok_iff.mp h
    obtain ⟨h2, h⟩ := throwIf_bind_ok_iff.mp h
    obtain ⟨r, hr, h⟩ := bind_ok_iff.mp h
    have := excLoop_ok hp rva (readT_below hp.reads (hp.dirRva_lt hrva) hr) r hr l h
    exact ⟨rva, hrva, by omega, this⟩

theorem excLoop_complete {p : Image} (hp : Readable p) (n pos : Nat) (r : Bytes) (hpos : pos < 4294967296)
    (hr : p.readT 12 pos .virt true = .ok r)
    (hrec : ∀ i < n, ∃ a b u, p.RuntimeFunction pos i a b u ∧ a ≠ 0 ∧ a ≤ b ∧ ∃ x, p.readT 6 u .virt true = .ok x)
    (hend : ∃ b u, p.RuntimeFunction pos n 0 b u) : ∃ l, p.excLoop pos r = .ok l ∧ l.length = n := by
  induction n generalizing pos r with
  | zero =>
    obtain ⟨b, u, r', h1, h2, -⟩ := hend
    rw [Nat.mul_zero, Nat.add_zero, hr] at h1
    cases h1
    refine ⟨[], ?_, rfl⟩
    rw [Image.excLoop, if_neg (by simp [h2])]
  | succ n ih =>
    obtain ⟨a, b, u, ⟨r', h1, h2, h3, h4⟩, ha, hab, x, hx⟩ := hrec 0 (by omega)
    rw [Nat.mul_zero, Nat.add_zero, hr] at h1
    cases h1
    have hlt := readT_below hp.reads hpos hr
    have hw : w32 (pos + 12) = pos + 12 := Nat.mod_eq_of_lt (by omega)
    have hnext : ∃ nx, p.readT 12 (pos + 12) .virt true = .ok nx := by
      rcases Nat.eq_zero_or_pos n with h0 | h0
      · obtain ⟨_, _, nx, h, _⟩ := hend
        subst h0
        exact ⟨nx, by simpa using h⟩
      · obtain ⟨_, _, _, ⟨nx, h, _⟩, _⟩ := hrec 1 (by omega)
        exact ⟨nx, by simpa using h⟩
    obtain ⟨nx, hnx⟩ := hnext
    obtain ⟨l, hl, hlen⟩ := ih (pos + 12) nx (by omega) hnx
      (fun i hi => by
        obtain ⟨a, b, u, ⟨y, j1, j2⟩, j3⟩ := hrec (i + 1) (by omega)
        exact ⟨a, b, u, ⟨y, by rw [← j1]; congr 1; omega, j2⟩, j3⟩)
      (by
        obtain ⟨b, u, y, j1, j2⟩ := hend
        exact ⟨b, u, y, by rw [← j1]; congr 1; omega, j2⟩)
    refine ⟨ExcEntry.ofBytes r x :: l, ?_, by rw [List.length_cons, hlen]⟩
    rw [Image.excLoop, if_pos (by omega), throwIf_neg (by omega), ok_bind, h4, hx, ok_bind, hw, hnx, ok_bind,
      dif_pos (by omega), hl, ok_bind]

/-- C46, nothing is lost: if the directory is aligned and consists of `n` records, each with an end not before its
    beginning and with readable unwind information, followed by a record with begin address zero, then reading
    succeeds and gives `n` entries (which are the right ones by `C46_entries`). -/
theorem C46_complete {p : Image} (hp : Readable p) (rva m n : Nat) (hd : p.hasDir dirException = .ok true)
    (hrva : p.nt.getDirRva dirException = .ok rva) (hal : rva % 4 = 0)
    (hm : p.dataLenFrom rva rva .virt true = .ok m) (hm12 : 12 ≤ m)
    (hrec : ∀ i < n, ∃ a b u, p.RuntimeFunction rva i a b u ∧ a ≠ 0 ∧ a ≤ b ∧ ∃ x, p.readT 6 u .virt true = .ok x)
    (hend : ∃ b u, p.RuntimeFunction rva n 0 b u) : ∃ l, p.getExceptions = .ok l ∧ l.length = n := by
  have hfirst : ∃ r, p.readT 12 rva .virt true = .ok r := by
    rcases Nat.eq_zero_or_pos n with h0 | h0
    · obtain ⟨_, _, r, h, _⟩ := hend
      subst h0
      exact ⟨r, by simpa using h⟩
    · obtain ⟨_, _, _, ⟨r, h, _⟩, _⟩ := hrec 0 h0
      exact ⟨r, by simpa using h⟩
  obtain ⟨r, hr⟩ := hfirst
  obtain ⟨l, hl, hlen⟩ := excLoop_complete hp n rva r (hp.dirRva_lt hrva) hr hrec hend
  refine ⟨l, ?_, hlen⟩
  unfold Image.getExceptions
  rw [hd, ok_bind, if_pos rfl, hrva, ok_bind, hm, ok_bind, throwIf_neg (by omega), ok_bind, throwIf_neg (by omega),
    ok_bind, hr, ok_bind, hl]

/-- The demo image with two RUNTIME_FUNCTION records and a terminator at the start of its last section. -/
def excImage : Image := { demoImage with
  nt := { demoImage.nt with dirs := demoImage.nt.dirs.set 3 (0x2000, 24) },
  secs := [demoImage.secs[0]'(by decide), { (demoImage.secs[1]'(by decide)) with
    data := leBytes 4 0x1000 ++ leBytes 4 0x1010 ++ leBytes 4 0x2024 ++ leBytes 4 0x1010 ++ leBytes 4 0x1020 ++
      leBytes 4 0x2024 ++ zeros 12 ++ [0x09, 4, 1, 0x25, 0, 0] }] }

theorem exc_readable : Readable excImage := by
  refine ⟨readsBelow_of (by decide +kernel) ?_, ⟨by decide +kernel, by decide +kernel⟩, by decide +kernel, by decide +kernel⟩
  decide +kernel

example : excImage.getExceptions = .ok
    [⟨0x1000, 0x1010, 0x2024, 1, 1, 4, 1, 5, 2⟩, ⟨0x1010, 0x1020, 0x2024, 1, 1, 4, 1, 5, 2⟩] := by decide +kernel

/-- C46_complete applies to this image. -/
example : ∃ l, excImage.getExceptions = .ok l ∧ l.length = 2 := by
  refine C46_complete exc_readable 0x2000 0x1000 2 (by decide +kernel) (by decide +kernel) (by decide)
    (by decide +kernel) (by decide) ?_ ⟨0, 0, _, (by decide +kernel : excImage.readT 12 0x2018 .virt true = .ok (zeros 12)),
      by decide, by decide, by decide⟩
  intro i hi
  rcases (by omega : i = 0 ∨ i = 1) with h | h <;> subst h
  · exact ⟨0x1000, 0x1010, 0x2024, ⟨_, (by decide +kernel : excImage.readT 12 0x2000 .virt true =
      .ok (leBytes 4 0x1000 ++ leBytes 4 0x1010 ++ leBytes 4 0x2024)), by decide, by decide, by decide⟩, by decide, by decide,
      [0x09, 4, 1, 0x25, 0, 0], by decide +kernel⟩
  · exact ⟨0x1010, 0x1020, 0x2024, ⟨_, (by decide +kernel : excImage.readT 12 0x200C .virt true =
      .ok (leBytes 4 0x1010 ++ leBytes 4 0x1020 ++ leBytes 4 0x2024)), by decide, by decide, by decide⟩, by decide, by decide,
      [0x09, 4, 1, 0x25, 0, 0], by decide +kernel⟩

end PE
