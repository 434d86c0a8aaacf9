/-
The readers of raw data (load configuration tables, bound imports): what they read is still read when raw data get longer.
-/
import Verif.Lemmas.View
namespace PE

/-- The raw data of the section at `rva` are, in `r`, followed by more bytes (or unchanged). -/
def LongerAt (p r : Image) (rva : Nat) : Prop :=
  ∀ s, p.sectionFromRva rva = .ok s → ∃ t x, r.sectionFromRva rva = .ok t ∧ t.va = s.va ∧ t.data = s.data ++ x ∧
    t.data.length < 2 ^ 32

theorem readInt_longer {p r : Image} {rva : Nat} (h : LongerAt p r rva) (n : Nat) :
    OkLe (p.readInt n rva .raw false) (r.readInt n rva .raw false) := by
  refine OkLe.bind ?_ fun _ => OkLe.refl _
  intro v hv
  unfold Image.readT at hv ⊢
  rw [if_neg (by simp)] at hv ⊢
  rw [bind_ok_iff] at hv
  obtain ⟨s, h1, h2⟩ := hv
  obtain ⟨t, x, h3, h4, h5, -⟩ := h s h1
  rw [h3, ok_bind]
  unfold Sec.view at h2 ⊢
  dsimp only at h2 ⊢
  rw [h4]
  have hl : t.data.length = s.data.length + x.length := by rw [h5, List.length_append]
  by_cases hc : s.data.length < sub32 rva s.va + n
  · rw [if_pos hc] at h2; cases h2
  · rw [if_neg hc, readN_ok (by omega)] at h2
    rw [if_neg (by omega), readN_ok (by omega), ← h2, h5, slice_append_left (by omega)]

/-! ### Load configuration -/

theorem readVaInt_longer {p r : Image} (hv : SameView p r) {va : Nat} (h : ∀ rva, p.vaToRva va = .ok rva → LongerAt p r rva) (n : Nat) :
    OkLe (p.readVaInt n va) (r.readVaInt n va) := by
  intro v hx
  unfold Image.readVaInt at hx ⊢
  rw [hv.vaToRva]
  rw [bind_ok_iff] at hx ⊢
  obtain ⟨rva, h1, h2⟩ := hx
  exact ⟨rva, h1, readInt_longer (h rva h1) n v h2⟩

theorem seLoop_longer {p r : Image} (hv : SameView p r) (table : Nat) (n i : Nat)
    (h : ∀ k, i ≤ k → k < i + n → ∀ rva, p.vaToRva ((table + k * 4) % 256 ^ p.kind.ptr) = .ok rva → LongerAt p r rva) :
    OkLe (p.seLoop table i n) (r.seLoop table i n) := by
  induction n generalizing i with
  | zero => exact OkLe.refl _
  | succ n ih =>
    unfold Image.seLoop
    rw [hv.kind]
    exact OkLe.bind (readVaInt_longer hv (h i (Nat.le_refl _) (by omega)) _) fun _ =>
      OkLe.bind (ih (i + 1) fun k h1 h2 => h k (by omega) (by omega)) fun _ => OkLe.refl _

theorem lockLoop_longer {p r : Image} (hv : SameView p r) (table : Nat) (fuel cur : Nat) (l : List Nat)
    (h : ∀ k, cur ≤ k → k ≤ cur + l.length → ∀ rva, p.vaToRva ((table + k * p.kind.ptr) % 256 ^ p.kind.ptr) = .ok rva → LongerAt p r rva)
    (hl : p.lockLoop table fuel cur = .ok l) : r.lockLoop table fuel cur = .ok l := by
  induction fuel generalizing cur l with
  | zero => cases hl
  | succ n ih =>
    unfold Image.lockLoop at hl ⊢
    rw [hv.kind]
    rw [bind_ok_iff] at hl ⊢
    obtain ⟨va, h1, h2⟩ := hl
    refine ⟨va, readVaInt_longer hv (h cur (Nat.le_refl _) (by omega)) _ va h1, ?_⟩
    by_cases hz : va = 0
    · rw [if_pos hz] at h2 ⊢; exact h2
    · rw [if_neg hz] at h2 ⊢
      rw [hv.vaToRva]
      rw [bind_ok_iff] at h2 ⊢
      obtain ⟨rva, h3, h4⟩ := h2
      refine ⟨rva, h3, ?_⟩
      rw [bind_ok_iff] at h4 ⊢
      obtain ⟨l', h5, h6⟩ := h4
      have e : rva :: l' = l := Except.ok.inj h6
      subst e
      exact ⟨l', ih (cur + 1) l' (fun k g1 g2 => h k (by omega) (by simp only [List.length_cons]; omega)) h5, rfl⟩

/-- The addresses of the tables of a load configuration: handlers, lock prefixes and the null behind them. -/
def ConfigInfo.tableVas (k : Kind) (c : ConfigInfo) : List Nat :=
  (List.range c.seCount).map (fun j => (c.seTable + j * 4) % 256 ^ k.ptr) ++
    if c.lockTable = 0 then [] else (List.range (c.locks.length + 1)).map (fun j => (c.lockTable + j * k.ptr) % 256 ^ k.ptr)

theorem getConfig_longer {p r : Image} (hv : SameView p r) {c : ConfigInfo} (hc : p.getConfig = .ok c)
    (h : ∀ va ∈ c.tableVas p.kind, ∀ rva, p.vaToRva va = .ok rva → LongerAt p r rva) : r.getConfig = .ok c := by
  have hd := hv.dir dirLoadConfig
  unfold Image.getConfig at hc ⊢
  rw [hd.has, hd.rva, hv.kind]
  rw [bind_ok_iff] at hc ⊢
  obtain ⟨b1, g1, hc⟩ := hc
  refine ⟨b1, g1, ?_⟩
  rw [bind_ok_iff] at hc ⊢
  obtain ⟨b2, g2, hc⟩ := hc
  refine ⟨b2, g2, ?_⟩
  rw [bind_ok_iff] at hc ⊢
  obtain ⟨rva, g3, hc⟩ := hc
  refine ⟨rva, g3, ?_⟩
  rw [bind_ok_iff] at hc ⊢
  obtain ⟨b, g4, hc⟩ := hc
  have e4 : p.readT p.kind.sizeofConfig rva .virt false = r.readT p.kind.sizeofConfig rva .virt false := hv.readT _ _ _
  refine ⟨b, e4 ▸ g4, ?_⟩
  rw [bind_ok_iff] at hc ⊢
  obtain ⟨b5, g5, hc⟩ := hc
  refine ⟨b5, g5, ?_⟩
  dsimp only at hc ⊢
  generalize hC : ConfigInfo.ofBytes p.kind b = C at hc ⊢
  rw [bind_ok_iff] at hc ⊢
  obtain ⟨b6, g6, hc⟩ := hc
  refine ⟨b6, g6, ?_⟩
  rw [bind_ok_iff] at hc ⊢
  obtain ⟨hs, g7, hc⟩ := hc
  rw [bind_ok_iff] at hc
  obtain ⟨ls, g8, hc⟩ := hc
  have e : { C with handlers := hs, locks := ls } = c := Except.ok.inj hc
  have ec : c.seCount = C.seCount ∧ c.seTable = C.seTable ∧ c.lockTable = C.lockTable ∧ c.locks = ls := by
    subst e; exact ⟨rfl, rfl, rfl, rfl⟩
  obtain ⟨ec1, ec2, ec3, ec4⟩ := ec
  refine ⟨hs, seLoop_longer hv _ _ _ (fun k _ h2 => h _ ?_) hs g7, ?_⟩
  · unfold ConfigInfo.tableVas
    rw [List.mem_append, ec1, ec2]
    exact .inl (List.mem_map.mpr ⟨k, List.mem_range.mpr (by omega), rfl⟩)
  rw [bind_ok_iff]
  refine ⟨ls, ?_, hc⟩
  unfold Image.lockPrefixes at g8 ⊢
  generalize 4294967296 = fuel at g8 ⊢
  by_cases hz : C.lockTable = 0
  · rw [if_neg (by simpa using hz)] at g8 ⊢; exact g8
  · rw [if_pos hz] at g8 ⊢
    refine lockLoop_longer hv _ _ _ _ (fun k _ h2 => h _ ?_) g8
    unfold ConfigInfo.tableVas
    rw [List.mem_append, ec3, if_neg hz, ec4]
    exact .inr (List.mem_map.mpr ⟨k, List.mem_range.mpr (by omega), rfl⟩)

/-! ### Bound imports -/

theorem readU_longer {n : Nat} {b : Bytes} (x : Bytes) {o : Nat} : OkLe (readU n b o) (readU n (b ++ x) o) := by
  intro v hv
  unfold readU at hv ⊢
  by_cases h : o + n ≤ b.length
  · rw [if_pos h] at hv
    rw [if_pos (by rw [List.length_append]; omega), ← hv]
    unfold rd
    rw [slice_append_left h]
  · rw [if_neg h] at hv; cases hv

theorem hasNul_append (a b : Bytes) (h : hasNul a = true) : hasNul (a ++ b) = true := by
  unfold hasNul at h ⊢
  rw [List.any_append, h, Bool.true_or]

theorem cstr_append_of_nul (a b : Bytes) (h : hasNul a = true) : cstr (a ++ b) = cstr a := by
  unfold hasNul at h
  unfold cstr
  induction a with
  | nil => simp at h
  | cons c a ih =>
    rw [List.cons_append]
    by_cases hc : c = 0
    · rw [List.takeWhile_cons_of_neg (by simp [hc]), List.takeWhile_cons_of_neg (by simp [hc])]
    · rw [List.takeWhile_cons_of_pos (by simpa using hc), List.takeWhile_cons_of_pos (by simpa using hc), ih]
      simpa [hc] using h

theorem checkedCStr_longer (b x : Bytes) {len len' : Nat} (hl : len ≤ len') (off : Nat) (e : Err) :
    OkLe (checkedCStr b len off e) (checkedCStr (b ++ x) len' off e) := by
  intro v hv
  unfold checkedCStr at hv ⊢
  rw [bind_ok_iff] at hv ⊢
  obtain ⟨u, h1, hv⟩ := hv
  rw [throwIf_ok_iff] at h1
  refine ⟨(), by rw [throwIf_ok_iff]; omega, ?_⟩
  rw [bind_ok_iff] at hv ⊢
  obtain ⟨t, h2, hv⟩ := hv
  rw [bind_ok_iff] at hv
  obtain ⟨u, h3, hv⟩ := hv
  rw [throwIf_ok_iff] at h3
  unfold isNullTerminated at h2 ⊢
  have hd : (b ++ x).drop off = b.drop off ++ x.drop (off - b.length) := List.drop_append
  by_cases hn : hasNul ((b.drop off).take (len - off)) = true
  · have hn' : hasNul (((b ++ x).drop off).take (len' - off)) = true := by
      have e1 : ((b ++ x).drop off).take (len' - off) = (b.drop off).take (len - off) ++
          (((b ++ x).drop off).take (len' - off)).drop ((b.drop off).take (len - off)).length := by
        have : (b.drop off).take (len - off) = (((b ++ x).drop off).take (len' - off)).take ((b.drop off).take (len - off)).length := by
          rw [hd, List.take_take, List.take_append_of_le_length (by simp only [List.length_take]; omega)]
          have : min ((b.drop off).take (len - off)).length (len' - off) = min (len - off) (b.drop off).length := by
            simp only [List.length_take]; omega
          rw [this]
          rw [← List.take_take, List.take_length]
        conv => rhs; lhs; rw [this]
        rw [List.take_append_drop]
      rw [e1]; exact hasNul_append _ _ hn
    refine ⟨true, by rw [if_pos hn'], ?_⟩
    rw [bind_ok_iff]
    refine ⟨(), by rw [throwIf_ok_iff]; simp, ?_⟩
    unfold readCStr at hv ⊢
    by_cases hb : hasNul (b.drop off) = true
    · rw [if_pos hb] at hv
      rw [hd, if_pos (hasNul_append _ _ hb), cstr_append_of_nul _ _ hb]; exact hv
    · rw [if_neg hb] at hv; cases hv
  · rw [if_neg hn] at h2
    split at h2
    · have := Except.ok.inj h2
      exact absurd this.symm h3
    · cases h2

theorem boundRefs_longer (b x : Bytes) {len len' : Nat} (hl : len ≤ len') (n pos : Nat) :
    OkLe (boundRefs b len n pos) (boundRefs (b ++ x) len' n pos) := by
  induction n generalizing pos with
  | zero => exact OkLe.refl _
  | succ n ih =>
    unfold boundRefs
    refine OkLe.bind ?_ fun _ => OkLe.bind (readU_longer x) fun _ => OkLe.bind (checkedCStr_longer b x hl _ _) fun _ =>
      OkLe.bind (readU_longer x) fun _ => OkLe.bind (ih _) fun _ => OkLe.refl _
    intro v hv
    rw [throwIf_ok_iff] at hv ⊢
    omega

theorem boundLoop_longer (b x : Bytes) {len len' : Nat} (hl : len ≤ len') (pos : Nat) :
    OkLe (boundLoop b len pos) (boundLoop (b ++ x) len' pos) := by
  generalize hn : len - pos = n
  induction n using Nat.strongRecOn generalizing pos with
  | _ n ih =>
    rw [boundLoop.eq_1 b len pos, boundLoop.eq_1 (b ++ x) len' pos]
    refine OkLe.bind (readU_longer x) fun _ => OkLe.ite (fun _ => OkLe.refl _) fun _ =>
      OkLe.bind (checkedCStr_longer b x hl _ _) fun _ => OkLe.bind (readU_longer x) fun _ => OkLe.bind (readU_longer x) fun m =>
      OkLe.bind' fun _ => OkLe.bind (boundRefs_longer b x hl _ _) fun _ => OkLe.bind ?_ fun _ => ?_
    · intro v hv
      rw [throwIf_ok_iff] at hv ⊢
      omega
    · intro v hv
      by_cases hc : pos < w32 (pos + 8 + 8 * m) ∧ w32 (pos + 8 + 8 * m) < len
      · rw [dif_pos hc] at hv
        rw [dif_pos ⟨hc.1, by omega⟩]
        exact OkLe.bind (ih _ (by omega) _ rfl) (fun _ => OkLe.refl _) v hv
      · rw [dif_neg hc] at hv; cases hv

theorem getBound_longer {p r : Image} (hv : SameView p r) {l : List BoundMod} (hl : p.getBound = .ok l)
    (h : ∀ rva, p.nt.getDirRva dirBoundImport = .ok rva → LongerAt p r rva) : r.getBound = .ok l := by
  have hd := hv.dir dirBoundImport
  unfold Image.getBound at hl ⊢
  rw [hd.has, hd.rva, hd.size]
  rw [bind_ok_iff] at hl ⊢
  obtain ⟨has, g1, hl⟩ := hl
  refine ⟨has, g1, ?_⟩
  by_cases hb : has = true
  · rw [if_pos hb] at hl ⊢
    rw [bind_ok_iff] at hl ⊢
    obtain ⟨rva, g2, hl⟩ := hl
    refine ⟨rva, g2, ?_⟩
    have hlong := h rva g2
    rw [bind_ok_iff] at hl
    obtain ⟨len, g3, hl⟩ := hl
    unfold Image.dataLenFrom at g3
    by_cases hh : rva < p.hdrData.length
    · rw [if_pos ⟨rfl, hh, hh⟩] at g3
      have e : Except.ok (w32 (r.hdrData.length - rva)) = r.dataLenFrom rva rva .raw true := by
        unfold Image.dataLenFrom
        rw [if_pos ⟨rfl, by rw [hv.hdr]; exact hh, by rw [hv.hdr]; exact hh⟩]
      have e2 : r.ptrFromRva rva .raw true = p.ptrFromRva rva .raw true := by
        unfold Image.ptrFromRva
        rw [hv.hdr, if_pos ⟨rfl, hh⟩, if_pos ⟨rfl, hh⟩]
      rw [bind_ok_iff]
      refine ⟨len, by rw [← e, hv.hdr]; exact g3, ?_⟩
      rw [e2]; exact hl
    · rw [if_neg (by rintro ⟨-, h1, -⟩; exact hh h1), bind_ok_iff] at g3
      obtain ⟨s, g4, g3⟩ := g3
      obtain ⟨t, x, k1, k2, k3, k4⟩ := hlong s g4
      by_cases hva : rva < s.va
      · rw [if_pos hva] at g3; cases g3
      rw [if_neg hva] at g3
      have elen : w32 (s.data.length + s.va - rva) = len := Except.ok.inj g3
      have hlt : t.data.length = s.data.length + x.length := by rw [k3, List.length_append]
      rw [bind_ok_iff] at hl
      obtain ⟨size, g5, hl⟩ := hl
      rw [bind_ok_iff] at hl
      obtain ⟨u, g6, hl⟩ := hl
      rw [throwIf_ok_iff] at g6
      have e1 : p.ptrFromRva rva .raw true = .ok (s.data, rva - s.va) := by
        unfold Image.ptrFromRva
        rw [if_neg (by rintro ⟨-, h1⟩; exact hh h1), g4, ok_bind]; rfl
      have e2 : r.ptrFromRva rva .raw true = .ok (t.data, rva - s.va) := by
        unfold Image.ptrFromRva
        rw [if_neg (by rintro ⟨-, h1⟩; rw [hv.hdr] at h1; exact hh h1), k1, ok_bind, k2]; rfl
      have e3 : r.dataLenFrom rva rva .raw true = .ok (w32 (t.data.length + s.va - rva)) := by
        unfold Image.dataLenFrom
        rw [if_neg (by rintro ⟨-, h1, -⟩; rw [hv.hdr] at h1; exact hh h1), k1, ok_bind, k2, if_neg hva]; rfl
      rw [e1, ok_bind] at hl
      dsimp only at hl
      rw [bind_ok_iff] at hl
      obtain ⟨u, g7, hl⟩ := hl
      rw [throwIf_ok_iff] at g7
      have hw1 : s.data.length + s.va - rva < 4294967296 := by omega
      have hw2 : t.data.length + s.va - rva < 4294967296 := by omega
      rw [w32, Nat.mod_eq_of_lt hw1] at elen
      rw [e3, ok_bind, w32, Nat.mod_eq_of_lt hw2, g5, ok_bind, throwIf_neg (by omega), ok_bind, e2, ok_bind]
      dsimp only
      rw [throwIf_neg (by omega), ok_bind, k3, List.drop_append_of_le_length (by omega)]
      exact boundLoop_longer _ _ (by rw [List.length_append]; omega) _ _ hl
  · rw [if_neg hb] at hl ⊢; exact hl

end PE
