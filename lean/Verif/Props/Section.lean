/-
C02, C03, C04: the section object.
-/
import Verif.Model.Section
import Verif.Lemmas.Basic
import Mathlib.Data.List.Induction
namespace PE

/-! ### C02: viewing a section virtually never changes its raw data -/

/-- A request for a view of the section contents. -/
inductive ViewOp
  | raw               -- get_raw_data()
  | virt (align : Nat)  -- get_virtual_data(align)

/-- Perform one request: new object and returned contents. -/
def SecObj.perform (o : SecObj) : ViewOp → SecObj × Bytes
  | .raw => o.getRawData
  | .virt a => o.getVirtualData a

/-- Perform a sequence of requests. -/
def SecObj.performAll (o : SecObj) : List ViewOp → SecObj
  | [] => o
  | op :: ops => (o.perform op).1.performAll ops

/-- The object holds raw data `d` (possibly extended by zeros while mapped). -/
private def Holds (o : SecObj) (h : Sec) (d : Bytes) : Prop :=
  o.hdr = h ∧ ((o.oldSize = none ∧ o.buf = d) ∨
    (∃ n, o.oldSize = some d.length ∧ o.buf = d ++ zeros n))

private theorem Holds.unmap {o : SecObj} {h : Sec} {d : Bytes} (H : Holds o h d) :
    o.unmapVirtual.hdr = h ∧ o.unmapVirtual.oldSize = none ∧ o.unmapVirtual.buf = d := by
  obtain ⟨hh, (⟨h1, h2⟩ | ⟨n, h1, h2⟩)⟩ := H
  · simp [SecObj.unmapVirtual, h1, h2, hh]
  · simp only [SecObj.unmapVirtual, h1, h2, hh, true_and]
    rw [resize_of_ge (by simp)]
    simp

private theorem Holds.map {o : SecObj} {h : Sec} {d : Bytes} (H : Holds o h d) (a : Nat) :
    Holds (o.mapVirtual a) h d := by
  obtain ⟨hh, (⟨h1, h2⟩ | ⟨n, h1, h2⟩)⟩ := H
  · unfold SecObj.mapVirtual
    split
    · next hc =>
      refine ⟨hh, .inr ⟨o.hdr.alignedVS a - d.length, ?_, ?_⟩⟩
      · simp [h2]
      · simp only
        rw [resize_of_le (by omega), h2]
    · exact ⟨hh, .inl ⟨h1, h2⟩⟩
  · unfold SecObj.mapVirtual
    rw [if_neg (by simp [h1])]
    exact ⟨hh, .inr ⟨n, h1, h2⟩⟩

private theorem Holds.perform {o : SecObj} {h : Sec} {d : Bytes} (H : Holds o h d) (op : ViewOp) :
    Holds (o.perform op).1 h d := by
  cases op with
  | raw =>
    obtain ⟨a, b, c⟩ := H.unmap
    exact ⟨a, .inl ⟨b, c⟩⟩
  | virt a => exact H.map a

private theorem Holds.performAll {o : SecObj} {h : Sec} {d : Bytes} (H : Holds o h d)
    (ops : List ViewOp) : Holds (o.performAll ops) h d := by
  induction ops generalizing o with
  | nil => exact H
  | cons op ops ih => exact ih (H.perform op)

/-- C02 (raw): after any history of view requests, `get_raw_data` returns the original raw bytes. -/
theorem C02_raw_data_unchanged (o : SecObj) (ho : o.oldSize = none) (ops : List ViewOp) :
    ((o.performAll ops).perform .raw).2 = o.buf ∧ (o.performAll ops).hdr = o.hdr := by
  have H : Holds (o.performAll ops) o.hdr o.buf := Holds.performAll ⟨rfl, .inl ⟨ho, rfl⟩⟩ ops
  exact ⟨H.unmap.2.2, H.1⟩

/-- C02 (virtual): after any history, the virtual view is the raw bytes followed by zeros only. -/
theorem C02_virtual_is_raw_then_zeros (o : SecObj) (ho : o.oldSize = none) (ops : List ViewOp)
    (a : Nat) : ∃ n, ((o.performAll ops).perform (.virt a)).2 = o.buf ++ zeros n := by
  have H : Holds (o.performAll ops) o.hdr o.buf := Holds.performAll ⟨rfl, .inl ⟨ho, rfl⟩⟩ ops
  obtain ⟨_, (⟨_, h2⟩ | ⟨n, _, h2⟩)⟩ := H.map a
  · exact ⟨0, by simpa [SecObj.perform, SecObj.getVirtualData] using h2⟩
  · exact ⟨n, by simpa [SecObj.perform, SecObj.getVirtualData] using h2⟩

/-- C02 (virtual length): a view created with alignment `a` (no other alignment used while it is
    mapped) has exactly the length `max (raw length) (aligned virtual size)`. -/
theorem C02_virtual_length (o : SecObj) (ho : o.oldSize = none) (ops : List ViewOp) (a : Nat)
    (hops : ∀ b, ViewOp.virt b ∈ ops → b = a) :
    ((o.performAll ops).perform (.virt a)).2 =
      o.buf ++ zeros (o.hdr.alignedVS a - o.buf.length) ∧
    ((o.performAll ops).perform (.virt a)).2.length = max o.buf.length (o.hdr.alignedVS a) := by
  -- invariant: unmapped, or mapped with exactly this extension
  have key : ∀ (ops : List ViewOp) (o' : SecObj), (∀ b, ViewOp.virt b ∈ ops → b = a) →
      (o'.hdr = o.hdr ∧ ((o'.oldSize = none ∧ o'.buf = o.buf) ∨
        (o'.oldSize = some o.buf.length ∧
          o'.buf = o.buf ++ zeros (o.hdr.alignedVS a - o.buf.length)))) →
      ((o'.performAll ops).perform (.virt a)).2 =
        o.buf ++ zeros (o.hdr.alignedVS a - o.buf.length) := by
    intro ops
    induction ops with
    | nil =>
      rintro o' - ⟨hh, (⟨h1, h2⟩ | ⟨h1, h2⟩)⟩
      · simp only [SecObj.performAll, SecObj.perform, SecObj.getVirtualData, SecObj.mapVirtual, h1, h2,
          hh, true_and]
        split
        · next hc => simp only; rw [resize_of_le (by omega)]
        · next hc =>
          have : o.hdr.alignedVS a - o.buf.length = 0 := by omega
          simp [this, h2]
      · simp [SecObj.performAll, SecObj.perform, SecObj.getVirtualData, SecObj.mapVirtual, h1, h2]
    | cons op ops ih =>
      intro o' hb hinv
      simp only [SecObj.performAll]
      apply ih _ (fun b hm => hb b (List.mem_cons_of_mem _ hm))
      obtain ⟨hh, hinv⟩ := hinv
      cases op with
      | raw =>
        rcases hinv with ⟨h1, h2⟩ | ⟨h1, h2⟩
        · simp [SecObj.perform, SecObj.getRawData, SecObj.unmapVirtual, h1, h2, hh]
        · refine ⟨?_, .inl ⟨?_, ?_⟩⟩
          · simp [SecObj.perform, SecObj.getRawData, SecObj.unmapVirtual, h1, hh]
          · simp [SecObj.perform, SecObj.getRawData, SecObj.unmapVirtual, h1]
          · simp only [SecObj.perform, SecObj.getRawData, SecObj.unmapVirtual, h1, h2]
            rw [resize_of_ge (by simp)]; simp
      | virt b =>
        obtain rfl : b = a := hb b (by simp)
        rcases hinv with ⟨h1, h2⟩ | ⟨h1, h2⟩
        · simp only [SecObj.perform, SecObj.getVirtualData, SecObj.mapVirtual, h1, h2, hh, true_and]
          split
          · next hc =>
            refine ⟨rfl, .inr ⟨rfl, ?_⟩⟩
            simp only; rw [resize_of_le (by omega)]
          · exact ⟨hh, .inl ⟨h1, h2⟩⟩
        · refine ⟨?_, .inr ?_⟩ <;>
            simp [SecObj.perform, SecObj.getVirtualData, SecObj.mapVirtual, h1, h2, hh]
  have h := key ops o hops ⟨rfl, .inl ⟨ho, rfl⟩⟩
  refine ⟨h, ?_⟩
  rw [h]; simp; omega

-- a section with 3 raw bytes and virtual size 5, viewed several times
example : (((⟨{ vsize := 5, rawSize := 3 }, [1, 2, 3], none⟩ : SecObj).performAll
      [.virt 8, .raw, .virt 8]).perform (.virt 8)).2 = [1, 2, 3, 0, 0, 0, 0, 0] := by decide

/-- The limit of C02: a view that is mapped is *not* refreshed when the virtual size changes
    (`map_virtual` does nothing while mapped), the old length is returned until the next
    `get_raw_data`. -/
theorem C02_mapped_view_is_stale_after_resize :
    ∃ (o : SecObj), o.oldSize = none ∧
      (((o.perform (.virt 4)).1.setVirtualSize 16).perform (.virt 4)).2.length ≠
        max o.buf.length ((o.setVirtualSize 16).hdr.alignedVS 4) :=
  ⟨⟨{ vsize := 8, rawSize := 1 }, [7], none⟩, rfl, by decide⟩

/-! ### C03: section name round-trips -/

theorem takeWhile_append_zero (l : Bytes) (t : Bytes) :
    (l ++ 0 :: t).takeWhile (· ≠ 0) = l.takeWhile (· ≠ 0) := by
  induction l with
  | nil => simp
  | cons a l ih =>
    simp only [List.cons_append, List.takeWhile_cons]
    split <;> simp_all

/-- C03: `get_name` returns the first 8 bytes of the name set, cut at the first zero byte. -/
theorem C03_name (s : Sec) (n : Bytes) :
    (s.setName n).getName = (n.take 8).takeWhile (· ≠ 0) := by
  simp only [Sec.getName, Sec.setName, cstr]
  have e : n.take (min n.length 8) = n.take 8 := by
    by_cases h : n.length ≤ 8
    · rw [Nat.min_eq_left h, List.take_of_length_le (Nat.le_refl _), List.take_of_length_le h]
    · rw [Nat.min_eq_right (by omega)]
  rw [e, List.take_of_length_le (by simp; omega)]
  rw [List.append_assoc]
  have : zeros (8 - min n.length 8) ++ [0] = 0 :: zeros (8 - min n.length 8) := by
    have := List.replicate_succ' (n := 8 - min n.length 8) (a := (0 : UInt8))
    simp only [zeros]
    rw [← this, List.replicate_succ]
  rw [this, takeWhile_append_zero]

/-- C03: a name of at most 8 non-zero bytes is returned unchanged, and only the name changes. -/
theorem C03_name_round_trip (s : Sec) (n : Bytes) (h8 : n.length ≤ 8) (hz : ∀ c ∈ n, c ≠ 0) :
    (s.setName n).getName = n ∧ { s.setName n with name := s.name } = s ∧
      (s.setName n).name.length = 8 := by
  refine ⟨?_, rfl, ?_⟩
  · rw [C03_name, List.take_of_length_le h8]
    induction n with
    | nil => rfl
    | cons a n ih =>
      have ha : a ≠ 0 := hz a (by simp)
      rw [List.takeWhile_cons]
      simp only [ne_eq, ha, not_false_eq_true, decide_true, if_true]
      rw [ih (by simp at h8; omega) (fun c hc => hz c (by simp [hc]))]
  · simp [Sec.setName]; omega

example : ([46, 116, 101, 120, 116] : Bytes).length ≤ 8 ∧ ∀ c ∈ ([46, 116, 101, 120, 116] : Bytes), c ≠ 0 := by
  decide

/-! ### C04: section attributes are independent -/

/-- Apply a sequence of attribute setter calls. -/
def Sec.setAttrs (s : Sec) (ops : List (Attr × Bool)) : Sec :=
  ops.foldl (fun s op => s.setAttr op.1 op.2) s

/-- The value given to attribute `a` by the last call of its setter, if any. -/
def lastSet (ops : List (Attr × Bool)) (a : Attr) : Option Bool :=
  (ops.reverse.find? (fun op => op.1 = a)).map (·.2)

/-- Bit number of an attribute in the characteristics word. -/
def Attr.bit : Attr → Nat
  | .readable => 30 | .writeable => 31 | .executable => 29 | .shared => 28 | .discardable => 25

theorem Attr.mask_eq (a : Attr) : a.mask = 2 ^ a.bit := by cases a <;> decide

theorem Attr.bit_inj {a b : Attr} (h : a.bit = b.bit) : a = b := by
  cases a <;> cases b <;> simp_all [Attr.bit]

theorem Attr.bit_lt (a : Attr) : a.bit < 32 := by cases a <;> decide

theorem setAttr_testBit (s : Sec) (a : Attr) (v : Bool) (i : Nat) (hs : s.chars < 2 ^ 32) :
    (s.setAttr a v).chars.testBit i = (if i = a.bit then v else s.chars.testBit i) := by
  unfold Sec.setAttr Sec.setFlag
  rw [a.mask_eq]
  cases v with
  | true =>
    simp only [if_true, Nat.testBit_or, Nat.testBit_two_pow]
    by_cases h : i = a.bit
    · subst h; simp
    · have : ¬ a.bit = i := fun e => h e.symm
      simp [h, this]
  | false =>
    have e : 4294967295 - 2 ^ a.bit = 2 ^ 32 - (2 ^ a.bit + 1) := by
      have := Nat.pow_lt_pow_right (a := 2) (by decide) a.bit_lt
      omega
    have hlt : 2 ^ a.bit < 2 ^ 32 := Nat.pow_lt_pow_right (by decide) a.bit_lt
    simp only [Bool.false_eq_true, if_false, Nat.testBit_and, e]
    rw [Nat.testBit_two_pow_sub_succ hlt, Nat.testBit_two_pow]
    by_cases h : i = a.bit
    · subst h; simp
    · have h' : ¬ a.bit = i := fun e => h e.symm
      simp only [h, h', decide_false, Bool.not_false, Bool.and_true, if_false]
      by_cases hi : i < 32
      · simp [hi]
      · have : s.chars.testBit i = false :=
          Nat.testBit_lt_two_pow (Nat.lt_of_lt_of_le hs (Nat.pow_le_pow_right (by decide) (by omega)))
        simp [hi, this]

theorem setAttr_lt (s : Sec) (a : Attr) (v : Bool) (hs : s.chars < 2 ^ 32) :
    (s.setAttr a v).chars < 2 ^ 32 := by
  unfold Sec.setAttr Sec.setFlag
  cases v
  · simp only [Bool.false_eq_true, if_false]
    exact Nat.lt_of_le_of_lt Nat.and_le_left hs
  · simp only [if_true]
    exact Nat.or_lt_two_pow hs (by cases a <;> decide)

theorem getAttr_testBit (s : Sec) (a : Attr) : s.getAttr a = s.chars.testBit a.bit := by
  unfold Sec.getAttr
  have e : s.chars &&& 2 ^ a.bit = if s.chars.testBit a.bit then 2 ^ a.bit else 0 := by
    apply Nat.eq_of_testBit_eq
    intro i
    rw [Nat.testBit_and, Nat.testBit_two_pow]
    by_cases h : a.bit = i
    · subst h; cases hb : s.chars.testBit a.bit <;> simp
    · cases hb : s.chars.testBit a.bit <;> simp [h]
  rw [a.mask_eq, e]
  cases s.chars.testBit a.bit <;> simp

theorem setAttrs_lt (ops : List (Attr × Bool)) (s : Sec) (hs : s.chars < 2 ^ 32) :
    (s.setAttrs ops).chars < 2 ^ 32 := by
  induction ops generalizing s with
  | nil => exact hs
  | cons op ops ih => exact ih _ (setAttr_lt s _ _ hs)

theorem setAttrs_snoc (s : Sec) (ops : List (Attr × Bool)) (op : Attr × Bool) :
    s.setAttrs (ops ++ [op]) = (s.setAttrs ops).setAttr op.1 op.2 := by
  simp [Sec.setAttrs]

theorem lastSet_snoc (ops : List (Attr × Bool)) (op : Attr × Bool) (a : Attr) :
    lastSet (ops ++ [op]) a = if op.1 = a then some op.2 else lastSet ops a := by
  unfold lastSet
  rw [List.reverse_append, List.reverse_singleton, List.singleton_append, List.find?_cons]
  by_cases h : op.1 = a <;> simp [h]

/-- C04 (getters): each getter returns the value of the last call of its own setter, or the initial
    value if there was none. -/
theorem C04_last_setter_wins (s : Sec) (hs : s.chars < 2 ^ 32) (ops : List (Attr × Bool)) (a : Attr) :
    (s.setAttrs ops).getAttr a = (lastSet ops a).getD (s.getAttr a) := by
  induction ops using List.reverseRecOn with
  | nil => simp [Sec.setAttrs, lastSet]
  | append_singleton ops op ih =>
    rw [setAttrs_snoc, lastSet_snoc, getAttr_testBit, setAttr_testBit _ _ _ _ (setAttrs_lt ops s hs)]
    by_cases h : op.1 = a
    · subst h; simp
    · have : ¬ a.bit = op.1.bit := fun e => h (Attr.bit_inj e.symm)
      simp only [this, h, if_false]
      rw [← getAttr_testBit, ih]

/-- C04 (frame): all other bits of the characteristics word and all other fields are unchanged. -/
theorem C04_other_bits_unchanged (s : Sec) (hs : s.chars < 2 ^ 32) (ops : List (Attr × Bool)) (i : Nat)
    (hi : i ≠ 25 ∧ i ≠ 28 ∧ i ≠ 29 ∧ i ≠ 30 ∧ i ≠ 31) :
    (s.setAttrs ops).chars.testBit i = s.chars.testBit i ∧
      { s.setAttrs ops with chars := s.chars } = s := by
  induction ops using List.reverseRecOn with
  | nil => exact ⟨rfl, rfl⟩
  | append_singleton ops op ih =>
    rw [setAttrs_snoc]
    constructor
    · rw [setAttr_testBit _ _ _ _ (setAttrs_lt ops s hs), if_neg, ih.1]
      intro e
      cases h : op.1 <;> simp_all [Attr.bit]
    · refine Eq.trans ?_ ih.2
      simp only [Sec.setAttr, Sec.setFlag]
      split <;> rfl

example : ((({ chars := 0x60000020 } : Sec).setAttrs
    [(.writeable, true), (.executable, false), (.writeable, true), (.discardable, true)]).chars) = 0xC2000020 := by
  decide

end PE
