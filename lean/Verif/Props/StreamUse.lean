/-
C84: checksum and entropy of a stream, and the stream afterwards.
-/
import Verif.Model.StreamUse
import Verif.Props.StreamState
namespace PE

/-- The position can be set again: streams over memory cannot stand behind their end. -/
def Stream.Reachable (f : Stream) : Prop := f.strict = true → f.pos ≤ f.data.length

theorem Stream.Good.eta {f : Stream} (h : f.Good) : f = ⟨f.data, f.strict, f.pos, false, false⟩ := by
  obtain ⟨d, s, p, e, l⟩ := f
  obtain ⟨h1, h2⟩ := h
  dsimp only at h1 h2
  subst h1 h2
  rfl

theorem tellg_at (D : Bytes) (st : Bool) (i : Nat) :
    (⟨D, st, i, false, false⟩ : Stream).tellg = ((i : Int), ⟨D, st, i, false, false⟩) := by
  unfold Stream.tellg
  rw [if_neg (by simp)]

theorem seekg_at (D : Bytes) (st : Bool) (i j : Nat) (h : st = true → j ≤ D.length) :
    (⟨D, st, i, false, false⟩ : Stream).seekg (j : Int) = ⟨D, st, j, false, false⟩ := by
  unfold Stream.seekg
  dsimp only
  rw [if_neg (by simp), if_pos ⟨by omega, fun hs => by have := h hs; omega⟩]
  simp

/-- C84 (size): the size of the stream is found without moving it. -/
theorem C84_file_size (f : Stream) (hf : f.Good) (hr : f.Reachable) : f.fileSize = ((f.data.length : Int), f) := by
  rw [hf.eta]
  unfold Stream.fileSize
  rw [tellg_at]
  dsimp only
  have e : (⟨f.data, f.strict, f.pos, false, false⟩ : Stream).seekEnd = ⟨f.data, f.strict, f.data.length, false, false⟩ := by
    unfold Stream.seekEnd
    rw [if_neg (by simp)]
  rw [e, tellg_at]
  dsimp only
  rw [seekg_at _ _ _ _ hr]

theorem read_at (D : Bytes) (st : Bool) (i n : Nat) (h : i + n ≤ D.length) :
    (⟨D, st, i, false, false⟩ : Stream).read n = (slice D i n, ⟨D, st, i + n, false, false⟩) := by
  unfold Stream.read
  rw [if_neg (by simp)]
  dsimp only
  rw [if_neg (by rw [slice_length]; omega)]

theorem read_cut (D : Bytes) (st : Bool) (i n : Nat) (hi : i ≤ D.length) (h : D.length < i + n) :
    (⟨D, st, i, false, false⟩ : Stream).read n = (slice D i n, ⟨D, st, D.length, true, true⟩) := by
  unfold Stream.read
  rw [if_neg (by simp)]
  dsimp only
  rw [if_pos (by rw [slice_length]; omega), slice_length]
  have : i + min n (D.length - i) = D.length := by omega
  rw [this]

/-- The stream after the loop: at the end, and failed if the last four bytes were not there. -/
def afterLoop (D : Bytes) (st : Bool) (i : Nat) : Stream :=
  if (D.length - i) % 4 = 0 then ⟨D, st, D.length, false, false⟩ else ⟨D, st, D.length, true, true⟩

theorem csLoopS_eq (D : Bytes) (st : Bool) (pos : Int) (i c : Nat) (hi : i ≤ D.length) :
    csLoopS pos D.length i c ⟨D, st, i, false, false⟩ = (csLoop pos i (D.drop i) c, afterLoop D st i) := by
  induction h : D.length - i using Nat.strongRecOn generalizing i c with
  | _ n ih =>
    unfold csLoopS csLoop
    by_cases hlt : i < D.length
    · rw [if_pos (by omega), dif_neg (by intro e; have := congrArg List.length e; simp at this; omega)]
      have es : (D.drop i).take 4 = slice D i 4 := rfl
      rw [List.drop_drop, es]
      dsimp only
      by_cases h4 : i + 4 ≤ D.length
      · rw [read_at D st i 4 h4]
        dsimp only
        rw [ih _ (by omega) (i + 4) _ h4 rfl]
        have : (D.length - (i + 4)) % 4 = (D.length - i) % 4 := by omega
        simp only [afterLoop, this]
      · rw [read_cut D st i 4 hi (by omega)]
        dsimp only
        unfold csLoopS csLoop
        rw [if_neg (show ¬ ((i + 4 : Nat) : Int) < (D.length : Int) by omega),
          dif_pos (List.drop_eq_nil_of_le (by omega))]
        unfold afterLoop
        rw [if_neg (show ¬ (D.length - i) % 4 = 0 by omega)]
    · have e : i = D.length := by omega
      rw [if_neg (by omega), dif_pos (List.drop_eq_nil_of_le (by omega))]
      subst e
      simp [afterLoop]

/-- `read_dos_header` on a good stream. -/
theorem dosS_eq (D : Bytes) (st : Bool) (i : Nat) (hi : i ≤ D.length) :
    dosS ⟨D, st, i, false, false⟩ =
      if D.length < i + 64 then (throwE .badDosHeader, ⟨D, st, D.length, true, true⟩)
      else if rd 2 (slice D i 64) 0 ≠ 0x5a4d then (throwE .badDosHeader, ⟨D, st, i + 64, false, false⟩)
      else (.ok (slice D i 64), ⟨D, st, i + 64, false, false⟩) := by
  have e0 : dosS ⟨D, st, i, false, false⟩ = (SM.readOr 64 .badDosHeader >>= fun b =>
      SM.lift (throwIf (rd 2 b 0 ≠ 0x5a4d) .badDosHeader) >>= fun _ => pure b) ⟨D, st, i, false, false⟩ := rfl
  rw [e0]
  by_cases h : D.length < i + 64
  · rw [if_pos h]
    have e : SM.readOr 64 .badDosHeader ⟨D, st, i, false, false⟩ = (throwE .badDosHeader, ⟨D, st, D.length, true, true⟩) := by
      rw [readOrS_eq, read_cut D st i 64 hi h]
      rfl
    rw [andThen_error (e := .exn .badDosHeader) (by rw [e]; rfl), e]
    rfl
  · rw [if_neg h]
    have e : SM.readOr 64 .badDosHeader ⟨D, st, i, false, false⟩ = (.ok (slice D i 64), ⟨D, st, i + 64, false, false⟩) := by
      rw [readOrS_eq, read_at D st i 64 (by omega)]
      rfl
    rw [andThen_ok e]
    by_cases hm : rd 2 (slice D i 64) 0 ≠ 0x5a4d
    · rw [if_pos hm, throwIf_pos hm]
      rfl
    · rw [if_neg hm, throwIf_neg hm]
      rfl

theorem checksumBodyS_eq (D : Bytes) (st : Bool) (i : Nat) (hi : i ≤ D.length) :
    checksumBodyS ⟨D, st, i, false, false⟩ =
      if D.length < i + 64 then (throwE .badDosHeader, ⟨D, st, D.length, true, true⟩)
      else if rd 2 (slice D i 64) 0 ≠ 0x5a4d then (throwE .badDosHeader, ⟨D, st, i + 64, false, false⟩)
      else (.ok (w32 (csFinish (csLoop (int32 (rd 4 (slice D i 64) 60) + 88) 0 D 0) + w32 D.length)), afterLoop D st 0) := by
  have e := dosS_eq D st i hi
  have e0 : checksumBodyS ⟨D, st, i, false, false⟩ = (dosS >>= fun dos => SM.seekg 0 >>= fun _ => fun f =>
      (.ok (w32 (csFinish (csLoopS (int32 (rd 4 dos 60) + 88) f.fileSize.1 0 0 f.fileSize.2).1 + w32 f.fileSize.1.toNat)),
        (csLoopS (int32 (rd 4 dos 60) + 88) f.fileSize.1 0 0 f.fileSize.2).2)) ⟨D, st, i, false, false⟩ := rfl
  rw [e0]
  by_cases h : D.length < i + 64
  · rw [if_pos h] at e ⊢
    rw [andThen_error (e := .exn .badDosHeader) (by rw [e]; rfl), e]
    rfl
  · rw [if_neg h] at e ⊢
    by_cases hm : rd 2 (slice D i 64) 0 ≠ 0x5a4d
    · rw [if_pos hm] at e ⊢
      rw [andThen_error (e := .exn .badDosHeader) (by rw [e]; rfl), e]
      rfl
    · rw [if_neg hm] at e ⊢
      rw [andThen_ok e]
      have es : SM.seekg 0 ⟨D, st, i + 64, false, false⟩ = (.ok (), ⟨D, st, 0, false, false⟩) := by
        unfold SM.seekg
        have := seekg_at D st (i + 64) 0 (fun _ => by omega)
        rw [show ((0 : Nat) : Int) = 0 from rfl] at this
        rw [this]
      refine (andThen_ok es).trans ?_
      rw [C84_file_size ⟨D, st, 0, false, false⟩ ⟨rfl, rfl⟩ (fun _ => by simp)]
      dsimp only
      rw [csLoopS_eq D st _ 0 0 (by omega)]
      simp

theorem restore'_at (D : Bytes) (st : Bool) (m : Mask) (i j : Nat) (hj : st = true → j ≤ D.length) :
    (⟨D, st, i, false, false⟩ : Stream).restore' m (j : Int) = (.ok (), ⟨D, st, j, false, false⟩) := by
  unfold Stream.restore'
  rw [if_neg (by simp [Mask.hits]), seekg_at D st i j hj]

theorem restore'_cut (D : Bytes) (st : Bool) (m : Mask) (i j : Nat) :
    (⟨D, st, i, true, true⟩ : Stream).restore' m (j : Int) =
      if m.eof = true ∨ m.fail = true then (throwE .iosFailure, ⟨D, st, i, true, true⟩)
      else (.ok (), ⟨D, st, i, false, false⟩) := by
  unfold Stream.restore' Stream.seekg Mask.hits
  simp only [Bool.and_true, Bool.or_eq_true, if_true]

theorem checksumS_good (m : Mask) (D : Bytes) (st : Bool) (i : Nat) :
    checksumS m ⟨D, st, i, false, false⟩ =
      match (checksumBodyS ⟨D, st, i, false, false⟩).1 with
      | .error (.ub u) => (.error (.ub u), (checksumBodyS ⟨D, st, i, false, false⟩).2)
      | v => match ((checksumBodyS ⟨D, st, i, false, false⟩).2.restore' m (i : Int)).1 with
        | .ok _ => (v, ((checksumBodyS ⟨D, st, i, false, false⟩).2.restore' m (i : Int)).2)
        | .error e => (.error e, ((checksumBodyS ⟨D, st, i, false, false⟩).2.restore' m (i : Int)).2) := by
  unfold checksumS
  rw [tellg_at]
  dsimp only
  rw [if_neg (by simp [Mask.hits])]
  generalize checksumBodyS _ = y
  obtain ⟨y1, y2⟩ := y
  cases y1 with
  | ok y => rfl
  | error e => cases e <;> rfl

theorem readDosHeader_eq (D : Bytes) (h : 64 ≤ D.length) :
    readDosHeader D = if rd 2 D 0 ≠ 0x5a4d then throwE .badDosHeader else .ok (slice D 0 64) := by
  unfold readDosHeader
  rw [throwIf_neg (by omega), ok_bind]
  by_cases hm : rd 2 D 0 ≠ 0x5a4d
  · rw [if_pos hm, throwIf_pos hm]; rfl
  · rw [if_neg hm, throwIf_neg hm]; rfl

theorem rd_header (D : Bytes) : rd 2 (slice D 0 64) 0 = rd 2 D 0 := by
  unfold rd
  rw [slice_slice (by omega)]

/-- C84 (checksum): at the beginning of a stream whose length is a multiple of four, `calculate_checksum` returns the
    checksum of the bytes of the stream - or the exception for it - and leaves the stream as it was, provided there are
    64 bytes for the DOS header. Partial: for other lengths and positions see below. -/
theorem C84_checksum_partial (m : Mask) (f : Stream) (hf : f.Good) (h0 : f.pos = 0) (h64 : 64 ≤ f.data.length)
    (h4 : f.data.length % 4 = 0) : checksumS m f = (calculateChecksum f.data, f) := by
  obtain ⟨D, st, i, e, l⟩ := f
  obtain ⟨hf1, hf2⟩ := hf
  dsimp only at hf1 hf2 h0 h64 h4 ⊢
  subst hf1 hf2 h0
  rw [checksumS_good, checksumBodyS_eq D st 0 (by omega), if_neg (by omega)]
  unfold calculateChecksum
  rw [rd_header, readDosHeader_eq D h64]
  by_cases hm : rd 2 D 0 ≠ 0x5a4d
  · rw [if_pos hm, if_pos hm]
    dsimp only [throwE]
    rw [restore'_at D st m _ 0 (fun _ => by omega)]
    rfl
  · rw [if_neg hm, if_neg hm]
    dsimp only
    unfold afterLoop
    rw [if_pos (by omega), restore'_at D st m _ 0 (fun _ => by omega)]
    rfl

/-- C84 (checksum, other lengths): if the length is not a multiple of four, the value is still right when the stream does
    not throw, but the stream is left at its end; a stream that throws on failure or end of file makes the call fail, and
    stays failed. -/
theorem C84_checksum_unaligned (m : Mask) (f : Stream) (hf : f.Good) (h0 : f.pos = 0) (h4 : f.data.length % 4 ≠ 0) (v : Nat)
    (hv : calculateChecksum f.data = .ok v) :
    (m.eof = false → m.fail = false → checksumS m f = (.ok v, { f with pos := f.data.length })) ∧
    (m.eof = true ∨ m.fail = true →
      checksumS m f = (throwE .iosFailure, { f with pos := f.data.length, eof := true, fail := true })) := by
  obtain ⟨D, st, i, e, l⟩ := f
  obtain ⟨hf1, hf2⟩ := hf
  dsimp only at hf1 hf2 h0 h4 hv ⊢
  subst hf1 hf2 h0
  have h64 : 64 ≤ D.length := by
    refine Classical.byContradiction fun hc => ?_
    unfold calculateChecksum readDosHeader at hv
    rw [throwIf_pos (by omega)] at hv
    cases hv
  unfold calculateChecksum at hv
  rw [readDosHeader_eq D h64] at hv
  by_cases hm : rd 2 D 0 ≠ 0x5a4d
  · rw [if_pos hm] at hv; cases hv
  rw [if_neg hm, ok_bind] at hv
  rw [checksumS_good, checksumBodyS_eq D st 0 (by omega), if_neg (by omega), rd_header, if_neg hm]
  dsimp only at hv ⊢
  rw [hv]
  unfold afterLoop
  rw [if_neg (by omega), restore'_cut]
  constructor
  · intro h1 h2
    rw [h1, h2]
    rfl
  · intro h
    rw [if_pos h]
    rfl

/-- C84 (checksum, short streams): with less than 64 bytes behind the position the exception says so, and the stream is
    left at its end. -/
theorem C84_checksum_short (f : Stream) (hf : f.Good) (hp : f.pos ≤ f.data.length) (hl : f.data.length < f.pos + 64) :
    checksumS {} f = (throwE .badDosHeader, { f with pos := f.data.length }) := by
  obtain ⟨D, st, i, e, l⟩ := f
  obtain ⟨hf1, hf2⟩ := hf
  dsimp only at hf1 hf2 hp hl ⊢
  subst hf1 hf2
  rw [checksumS_good, checksumBodyS_eq D st i hp, if_pos hl]
  dsimp only [throwE]
  rw [restore'_cut]
  rfl

/-- C84 (checksum, wrong signature): the stream is left as it was. -/
theorem C84_checksum_signature (m : Mask) (f : Stream) (hf : f.Good) (hl : f.pos + 64 ≤ f.data.length)
    (hs : rd 2 f.data f.pos ≠ 0x5a4d) : checksumS m f = (throwE .badDosHeader, f) := by
  obtain ⟨D, st, i, e, l⟩ := f
  obtain ⟨hf1, hf2⟩ := hf
  dsimp only at hf1 hf2 hl hs ⊢
  subst hf1 hf2
  have e : rd 2 (slice D i 64) 0 = rd 2 D i := by
    unfold rd
    rw [slice_slice (by omega)]
    rfl
  rw [checksumS_good, checksumBodyS_eq D st i (by omega), if_neg (by omega), e, if_pos hs]
  dsimp only [throwE]
  rw [restore'_at D st m _ i (fun _ => by omega)]

/-- C84 (limit): the header that tells where the stored checksum is comes from the current position, not from the beginning
    of the stream: behind the beginning the checksum of a good file is refused. -/
theorem C84_checksum_elsewhere : (∃ v, calculateChecksum tinyGood = .ok v) ∧
    checksumS {} { data := tinyGood, strict := true, pos := 4 } =
      (throwE .badDosHeader, { data := tinyGood, strict := true, pos := 4 }) := by
  obtain ⟨v, hv, _⟩ := exists_of_okAnd (x := calculateChecksum tinyGood) (f := fun _ => true) (by decide +kernel)
  exact ⟨⟨v, hv⟩, C84_checksum_signature {} _ ⟨rfl, rfl⟩ (by decide +kernel) (by decide +kernel)⟩

/-! ### Entropy -/

theorem getBytesS_eq (D : Bytes) (st : Bool) (n i : Nat) (h : i + n ≤ D.length) :
    getBytesS n ⟨D, st, i, false, false⟩ = (slice D i n, ⟨D, st, i + n, false, false⟩) := by
  induction n generalizing i with
  | zero => simp [getBytesS, slice]
  | succ n ih =>
    unfold getBytesS Stream.get
    rw [read_at D st i 1 (by omega)]
    dsimp only
    rw [ih (i + 1) (by omega)]
    dsimp only
    have e : slice D i (n + 1) = slice D i 1 ++ slice D (i + 1) n := by
      rw [Nat.add_comm n 1, slice_add]
    have e1 : slice D i 1 = [D[i]] := by
      unfold slice
      rw [List.drop_eq_getElem_cons (by omega)]
      rfl
    rw [e, e1, show i + 1 + n = i + (n + 1) by omega]
    rfl

/-- C84 (entropy): from the position of a stream to its end; the stream is left as it was, also if there is nothing to
    count. -/
theorem C84_entropy (f : Stream) (hf : f.Good) (hp : f.pos ≤ f.data.length) :
    entropyS f = (entropyOfStream f.data f.pos, f) := by
  obtain ⟨D, st, i, e, l⟩ := f
  obtain ⟨hf1, hf2⟩ := hf
  dsimp only at hf1 hf2 hp ⊢
  subst hf1 hf2
  unfold entropyS entropyOfStream
  rw [tellg_at]
  dsimp only
  rw [C84_file_size ⟨D, st, i, false, false⟩ ⟨rfl, rfl⟩ (fun _ => hp)]
  dsimp only
  rw [tellg_at]
  dsimp only
  by_cases h0 : D.length - i = 0
  · rw [if_pos (by omega), if_pos h0]
  · have et : ((D.length : Int) - (i : Int)).toNat = D.length - i := by omega
    rw [if_neg (by omega), if_neg (by omega), if_neg h0, et, getBytesS_eq D st _ i (by omega)]
    dsimp only
    rw [seekg_at D st _ i (fun _ => hp)]
    rfl

/-- C84 (entropy, limit): a file stream can stand behind its end; the number of bytes to count is negative then, and the
    counting loop does not end. -/
theorem C84_entropy_behind (f : Stream) (hf : f.Good) (hs : f.strict = false) (hp : f.data.length < f.pos) :
    (entropyS f).1 = ubE .hang := by
  obtain ⟨D, st, i, e, l⟩ := f
  obtain ⟨hf1, hf2⟩ := hf
  dsimp only at hf1 hf2 hp hs ⊢
  subst hf1 hf2 hs
  unfold entropyS
  rw [tellg_at]
  dsimp only
  rw [C84_file_size ⟨D, false, i, false, false⟩ ⟨rfl, rfl⟩ (fun h => by cases h)]
  dsimp only
  rw [tellg_at]
  dsimp only
  rw [if_neg (by omega), if_pos (by omega)]

/-- C84 (entropy of a stream that is not good): reported as empty data, never a value. -/
theorem C84_entropy_not_good (f : Stream) (hf : ¬ f.Good) : (entropyS f).1 = throwE .dataIsEmpty := by
  have hg : f.eof = true ∨ f.fail = true := by
    unfold Stream.Good at hf
    cases he : f.eof <;> cases hl : f.fail <;> simp [he, hl] at hf ⊢
  unfold entropyS Stream.fileSize Stream.tellg Stream.seekEnd Stream.seekg
  simp [hg]

/-! ### Examples -/

-- a file of 1088 bytes, and the same with one byte more
example : let f : Stream := { data := tinyGood, strict := true, pos := 0 }
    f.Good ∧ 64 ≤ f.data.length ∧ f.data.length % 4 = 0 := by
  refine ⟨⟨rfl, rfl⟩, by decide +kernel, by decide +kernel⟩

example : let f : Stream := { data := tinyGood ++ [5], strict := true, pos := 0 }
    f.Good ∧ f.data.length % 4 ≠ 0 ∧ ∃ v, calculateChecksum f.data = .ok v := by
  obtain ⟨v, hv, _⟩ := exists_of_okAnd (x := calculateChecksum (tinyGood ++ [5])) (f := fun _ => true) (by decide +kernel)
  exact ⟨⟨rfl, rfl⟩, by decide +kernel, v, hv⟩

example : let f : Stream := { data := [1, 2, 3, 4], strict := false, pos := 7 }
    f.Good ∧ f.strict = false ∧ f.data.length < f.pos := ⟨⟨rfl, rfl⟩, rfl, by decide⟩

end PE
