/-
Helper lemmas about relocations.
-/
import Verif.Spec.Reloc
import Verif.Lemmas.Host
import Verif.Lemmas.Dirs
namespace PE

theorem ofItem_eq (n : Nat) : RelocEntry.ofItem n = ⟨n % 4096, n / 4096⟩ := by
  unfold RelocEntry.ofItem
  rw [Nat.shiftRight_eq_div_pow]
  congr 1
  exact Nat.and_two_pow_sub_one_eq_mod n 12

theorem item_eq {e : RelocEntry} (h : e.Ok) : e.item = e.word := by
  obtain ⟨h1, h2⟩ := h
  unfold RelocEntry.item RelocEntry.word w16
  rw [Nat.or_comm, Nat.shiftLeft_eq, Nat.mul_comm, ← Nat.two_pow_add_eq_or_of_lt (by simpa using h1)]
  rw [Nat.mod_eq_of_lt (by omega)]

theorem ofItem_item {e : RelocEntry} (h : e.Ok) : RelocEntry.ofItem e.item = e := by
  rw [item_eq h, ofItem_eq]
  obtain ⟨h1, h2⟩ := h
  unfold RelocEntry.word
  cases e
  simp only at *
  congr 1 <;> omega

theorem item_lt (e : RelocEntry) : e.item < 65536 := Nat.mod_lt _ (by decide)

/-- Bytes of the stored items. -/
def encItems (es : List RelocEntry) : Bytes := es.flatMap (fun e => leBytes 2 e.item)

def encTable (t : RelocTable) : Bytes :=
  leBytes 4 t.rva ++ leBytes 4 (8 + 2 * t.stored.length) ++ encItems t.stored

def encTables (ts : List RelocTable) : Bytes := ts.flatMap encTable

theorem encItems_length (es : List RelocEntry) : (encItems es).length = 2 * es.length := by
  induction es with
  | nil => rfl
  | cons e es ih => simp only [encItems, List.flatMap_cons, List.length_append, leBytes_length, List.length_cons] at *; omega

theorem encTable_length (t : RelocTable) : (encTable t).length = 8 + 2 * t.stored.length := by
  simp only [encTable, List.length_append, leBytes_length, encItems_length]

theorem encTables_length (ts : List RelocTable) : (encTables ts).length = relocBytes ts := by
  induction ts with
  | nil => rfl
  | cons t ts ih =>
    simp only [encTables, relocBytes, List.flatMap_cons, List.length_append, List.map_cons, List.sum_cons] at *
    rw [encTable_length, ih]

theorem stored_length (t : RelocTable) : t.stored.length = t.relocs.length + t.relocs.length % 2 := by
  unfold RelocTable.stored
  split
  · omega
  · simp; omega

theorem relocWriteEntries_eq (es : List RelocEntry) (d : Bytes) (pos : Nat) (h : pos + 2 * es.length ≤ d.length)
    (h32 : pos + 2 * es.length < 2 ^ 32) :
    relocWriteEntries d pos es = .ok (patch d pos (encItems es), pos + 2 * es.length) := by
  induction es generalizing d pos with
  | nil => simp [relocWriteEntries, encItems, patch_nil]
  | cons e es ih =>
    simp only [List.length_cons] at h h32
    have hw : pos + (leBytes 2 e.item).length ≤ d.length := by simp; omega
    have hl := patch_length hw
    unfold relocWriteEntries
    rw [writeAt_ok hw, ok_bind, w32, Nat.mod_eq_of_lt (by omega), ih _ _ (by omega) (by omega)]
    have := patch_patch_adjacent (b := d) (d := leBytes 2 e.item) (e := encItems es) (off := pos)
      (by simp [encItems_length]; omega)
    simp only [leBytes_length] at this
    rw [this]
    simp only [encItems, List.flatMap_cons, List.length_cons]
    congr 2; omega

theorem relocWriteTables_eq (ts : List RelocTable) (d : Bytes) (pos : Nat) (h : pos + relocBytes ts ≤ d.length)
    (h32 : pos + relocBytes ts < 2 ^ 32) (h4 : pos % 4 = 0) :
    relocWriteTables d pos ts = .ok (patch d pos (encTables ts), pos + relocBytes ts) := by
  induction ts generalizing d pos with
  | nil => simp [relocWriteTables, encTables, patch_nil, relocBytes]
  | cons t ts ih =>
    have hb : relocBytes (t :: ts) = 8 + 2 * t.stored.length + relocBytes ts := by
      simp [relocBytes]
    have hst := stored_length t
    have hsize : (if (t.relocs.length * 2) % 4 ≠ 0 then w32 (w32 (8 + 2 * t.relocs.length) + 2)
        else w32 (8 + 2 * t.relocs.length)) = 8 + 2 * t.stored.length := by
      simp only [w32]
      split <;> omega
    unfold relocWriteTables
    simp only [hsize]
    have hw : pos + (leBytes 4 t.rva ++ leBytes 4 (8 + 2 * t.stored.length)).length ≤ d.length := by simp; omega
    have hl := patch_length hw
    rw [writeAt_ok hw, ok_bind, w32, Nat.mod_eq_of_lt (by omega),
      relocWriteEntries_eq _ _ _ (by omega) (by omega)]
    simp only [ok_bind]
    have a1 := patch_patch_adjacent (b := d) (d := leBytes 4 t.rva ++ leBytes 4 (8 + 2 * t.stored.length))
      (e := encItems t.relocs) (off := pos) (by simp [encItems_length]; omega)
    rw [show pos + (leBytes 4 t.rva ++ leBytes 4 (8 + 2 * t.stored.length)).length = pos + 8 by simp] at a1
    rw [a1]
    have hl2 := patch_length (b := d) (off := pos)
      (d := leBytes 4 t.rva ++ leBytes 4 (8 + 2 * t.stored.length) ++ encItems t.relocs)
      (by simp [encItems_length]; omega)
    by_cases hodd : t.relocs.length % 2 = 0
    · have hs : t.stored = t.relocs := by unfold RelocTable.stored; rw [if_pos hodd]
      rw [if_neg (by omega), ih _ _ (by omega) (by omega) (by omega)]
      have a2 := patch_patch_adjacent (b := d) (off := pos)
        (d := leBytes 4 t.rva ++ leBytes 4 (8 + 2 * t.stored.length) ++ encItems t.relocs)
        (e := encTables ts) (by simp [encItems_length, encTables_length]; omega)
      rw [show pos + (leBytes 4 t.rva ++ leBytes 4 (8 + 2 * t.stored.length) ++ encItems t.relocs).length =
        pos + 8 + 2 * t.relocs.length by simp [encItems_length]; omega] at a2
      rw [a2]
      simp only [encTables, List.flatMap_cons, encTable]
      rw [hb, hs]; congr 2; omega
    · have hs : t.stored = t.relocs ++ [⟨0, 0⟩] := by unfold RelocTable.stored; rw [if_neg hodd]
      have he : encItems t.stored = encItems t.relocs ++ zeros 2 := by
        rw [hs]; simp only [encItems, List.flatMap_append]; rfl
      have a2 := patch_patch_adjacent (b := d) (off := pos)
        (d := leBytes 4 t.rva ++ leBytes 4 (8 + 2 * t.stored.length) ++ encItems t.relocs)
        (e := zeros 2) (by simp [encItems_length]; omega)
      rw [show pos + (leBytes 4 t.rva ++ leBytes 4 (8 + 2 * t.stored.length) ++ encItems t.relocs).length =
        pos + 8 + 2 * t.relocs.length by simp [encItems_length]; omega] at a2
      rw [if_pos (by omega), writeAt_ok (by simp only [zeros_length]; omega), ok_bind, a2, w32,
        Nat.mod_eq_of_lt (by omega), List.append_assoc, ← he]
      have hl3 := patch_length (b := d) (off := pos) (d := encTable t)
        (by simp [encTable_length]; omega)
      have heq : leBytes 4 t.rva ++ leBytes 4 (8 + 2 * t.stored.length) ++ encItems t.stored = encTable t := rfl
      rw [heq, ih _ _ (by omega) (by omega) (by omega)]
      have a3 := patch_patch_adjacent (b := d) (off := pos)
        (d := encTable t) (e := encTables ts) (by simp [encTable_length, encTables_length]; omega)
      rw [show pos + (encTable t).length = pos + 8 + 2 * t.relocs.length + 2 by simp [encTable_length]; omega] at a3
      rw [a3]
      simp only [encTables, List.flatMap_cons]
      rw [hb]; congr 2; omega

theorem relocNeeded_eq (start delta : Nat) (h4 : start % 4 = 0) (ts : List RelocTable) (n : Nat) (hd : delta ≤ n)
    (hn : (n - delta) % 4 = 0) (h32 : start + n + relocBytes ts < 2 ^ 32) :
    relocNeeded start delta ts n = n + relocBytes ts := by
  induction ts generalizing n with
  | nil => simp [relocNeeded, relocBytes]
  | cons t ts ih =>
    have hb : relocBytes (t :: ts) = 8 + 2 * t.stored.length + relocBytes ts := by simp [relocBytes]
    have hst := stored_length t
    unfold relocNeeded
    have hw : w32 (n + w32 (t.relocs.length * 2 + 8)) = n + (t.relocs.length * 2 + 8) := by
      simp only [w32]; omega
    have hz : (if sub32 (w32 (start + (n + (t.relocs.length * 2 + 8)))) delta % 4 ≠ 0 then
        w32 (n + (t.relocs.length * 2 + 8) + 2) else n + (t.relocs.length * 2 + 8)) = n + (8 + 2 * t.stored.length) := by
      have hmod : sub32 (w32 (start + (n + (t.relocs.length * 2 + 8)))) delta % 4 = t.relocs.length * 2 % 4 := by
        simp only [w32, sub32]; omega
      rw [hmod]
      by_cases hc : t.relocs.length * 2 % 4 = 0
      · rw [if_neg (by omega)]; omega
      · rw [if_pos hc, w32]; omega
    simp only [hw, hz]
    rw [ih _ (by omega) (by omega) (by omega)]
    omega

/-! ### reading -/

theorem relocEntries_eq {p : Image} {va : Nat} {m : Bytes} {s : Sec} (hw : Window p va m s) (listAbs : Bool)
    (es : List RelocEntry) (hes : ∀ e ∈ es, e.Ok) (o i : Nat) (pre post : Bytes)
    (hm : m = pre ++ encItems es ++ post) (hpre : pre.length = o + i) :
    p.relocEntries listAbs (va + o) (i + 2 * es.length) i =
      .ok (es.filter (fun e => listAbs || decide (e.type ≠ 0))) := by
  induction es generalizing i pre with
  | nil => unfold Image.relocEntries; simp
  | cons e es ih =>
    have hlen : m.length = o + i + (2 + 2 * es.length) + post.length := by
      rw [hm]; simp only [List.length_append, encItems_length, List.length_cons]; omega
    have hfin := hw.fin
    unfold Image.relocEntries
    rw [if_pos (by simp), w32, Nat.mod_eq_of_lt (by omega), Nat.add_assoc, hw.readInt true (by omega) (by omega),
      ok_bind]
    have hrd : rd 2 m (o + i) = e.item := by
      rw [hm, List.append_assoc, rd_skip (by omega), hpre, Nat.sub_self]
      simp only [encItems, List.flatMap_cons, List.append_assoc]
      rw [rd_here, Nat.mod_eq_of_lt (item_lt e)]
    have := ih (fun x hx => hes x (List.mem_cons_of_mem _ hx)) (i + 2) (pre ++ leBytes 2 e.item)
      (by rw [hm]; simp [encItems]) (by simp [hpre]; omega)
    rw [show i + 2 * (e :: es).length = i + 2 + 2 * es.length by simp; omega, this, ok_bind]
    dsimp only
    rw [hrd, ofItem_item (hes e (by simp))]
    by_cases hc : listAbs = true ∨ e.type ≠ 0
    · rw [if_pos hc, List.filter_cons_of_pos (by simpa using hc)]
    · rw [if_neg hc, List.filter_cons_of_neg (by simpa using hc)]

theorem relocBlocks_eq {p : Image} {va : Nat} {m : Bytes} {s : Sec} (hw : Window p va m s) (listAbs : Bool)
    (ts : List RelocTable) (hts : ∀ t ∈ ts, t.rva < 2 ^ 32 ∧ ∀ e ∈ t.relocs, e.Ok) (o readSize : Nat) (pre post : Bytes)
    (t : RelocTable) (ht : t.rva < 2 ^ 32 ∧ ∀ e ∈ t.relocs, e.Ok)
    (hm : m = pre ++ encTables (t :: ts) ++ post) (hpre : pre.length = o)
    (hrs : readSize + relocBytes (t :: ts) < 2 ^ 32) :
    p.relocBlocks listAbs (readSize + relocBytes (t :: ts)) (va + o) t.rva (8 + 2 * t.stored.length) readSize =
      .ok ((t :: ts).map (fun t => ⟨t.rva, t.stored.filter (fun e => listAbs || decide (e.type ≠ 0))⟩)) := by
  induction ts generalizing o readSize pre t with
  | nil =>
    have hb : relocBytes [t] = 8 + 2 * t.stored.length := by simp [relocBytes]
    have hlen : m.length = o + (8 + 2 * t.stored.length) + post.length := by
      rw [hm]; simp only [List.length_append, encTables_length, hb, hpre]
    have hfin := hw.fin
    have hstored : ∀ e ∈ t.stored, e.Ok := by
      unfold RelocTable.stored; split
      · exact ht.2
      · intro e he
        rcases List.mem_append.mp he with he | he
        · exact ht.2 e he
        · simp only [List.mem_singleton] at he; rw [he]; exact ⟨by decide, by decide⟩
    have hE := relocEntries_eq hw listAbs t.stored hstored o 8
      (pre ++ (leBytes 4 t.rva ++ leBytes 4 (8 + 2 * t.stored.length))) post
      (by rw [hm]; simp [encTables, encTable]) (by simp [hpre])
    unfold Image.relocBlocks
    rw [if_pos ⟨by omega, by omega⟩, dif_neg (by simp only [isSumSafe, decide_eq_false_iff_not]; omega), hE, ok_bind]
    dsimp only
    rw [if_pos (by rw [hb, w32, Nat.mod_eq_of_lt (by omega)]; omega)]
    rfl
  | cons u ts ih =>
    have hb : relocBytes (t :: u :: ts) = 8 + 2 * t.stored.length + relocBytes (u :: ts) := by simp [relocBytes]
    have hb2 : relocBytes (u :: ts) = 8 + 2 * u.stored.length + relocBytes ts := by simp [relocBytes]
    have hlen : m.length = o + (8 + 2 * t.stored.length + relocBytes (u :: ts)) + post.length := by
      rw [hm]; simp only [List.length_append, encTables_length, hb, hpre]
    have hfin := hw.fin
    have hstored : ∀ e ∈ t.stored, e.Ok := by
      unfold RelocTable.stored; split
      · exact ht.2
      · intro e he
        rcases List.mem_append.mp he with he | he
        · exact ht.2 e he
        · simp only [List.mem_singleton] at he; rw [he]; exact ⟨by decide, by decide⟩
    have hE := relocEntries_eq hw listAbs t.stored hstored o 8
      (pre ++ (leBytes 4 t.rva ++ leBytes 4 (8 + 2 * t.stored.length))) (encTables (u :: ts) ++ post)
      (by rw [hm]; simp [encTables, encTable]) (by simp [hpre])
    have hI := ih (fun x hx => hts x (List.mem_cons_of_mem _ hx)) (o + (8 + 2 * t.stored.length))
      (readSize + (8 + 2 * t.stored.length)) (pre ++ encTable t) u (hts u (by simp))
      (by rw [hm]; simp [encTables]) (by simp [hpre, encTable_length]) (by omega)
    unfold Image.relocBlocks
    rw [if_pos ⟨by omega, by omega⟩, dif_neg (by simp only [isSumSafe, decide_eq_false_iff_not]; omega), hE, ok_bind]
    dsimp only
    have hw1 : w32 (readSize + (8 + 2 * t.stored.length)) = readSize + (8 + 2 * t.stored.length) := by
      rw [w32, Nat.mod_eq_of_lt (by omega)]
    have hread := hw.readT true (o + (8 + 2 * t.stored.length)) 8 (by omega) (by omega)
    have hsl : slice m (o + (8 + 2 * t.stored.length)) 8 =
        leBytes 4 u.rva ++ leBytes 4 (8 + 2 * u.stored.length) := by
      rw [hm]
      have : pre ++ encTables (t :: u :: ts) ++ post = (pre ++ encTable t) ++
          ((leBytes 4 u.rva ++ leBytes 4 (8 + 2 * u.stored.length)) ++ (encItems u.stored ++ encTables ts ++ post)) := by
        simp [encTables, encTable]
      rw [this, slice_append_right (by simp [hpre, encTable_length])]
      rw [show o + (8 + 2 * t.stored.length) - (pre ++ encTable t).length = 0 by simp [hpre, encTable_length]]
      exact slice_append_here (by simp)
    rw [hw1, if_neg (by omega), Nat.add_assoc, hread, ok_bind, hsl]
    have e1 : rd 4 (leBytes 4 u.rva ++ leBytes 4 (8 + 2 * u.stored.length)) 0 = u.rva := by
      rw [rd_here, Nat.mod_eq_of_lt (by have := (hts u (by simp)).1; omega)]
    have e2 : rd 4 (leBytes 4 u.rva ++ leBytes 4 (8 + 2 * u.stored.length)) 4 = 8 + 2 * u.stored.length := by
      rw [rd_leBytes_skip (by omega), rd_here', Nat.mod_eq_of_lt (by omega)]
    rw [e1, e2, show readSize + relocBytes (t :: u :: ts) =
      readSize + (8 + 2 * t.stored.length) + relocBytes (u :: ts) by omega, hI]
    rfl

end PE
