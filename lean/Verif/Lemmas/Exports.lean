/-
Helper lemmas for the export directory.
-/
import Verif.Spec.Exports
import Verif.Lemmas.Mod

namespace PE

theorem Window.exportStr {p : Image} {va : Nat} {m : Bytes} {s : Sec} (h : Window p va m s) {o : Nat} {x : Bytes}
    (ha : At m o (x ++ [0])) (h2 : o + 2 ≤ m.length) (hx : ∀ c ∈ x, c ≠ 0) : p.exportStr (va + o) = .ok x := h.strAt ha h2 hx _

/-! ### The name table -/

/-- The three tables of the names: addresses, strings, ordinals. -/
def nameRvaBytes (va : Nat) : Nat → List (Bytes × Nat) → Bytes
  | _, [] => []
  | ps, e :: es => leBytes 4 (va + ps) ++ nameRvaBytes va (ps + (e.1.length + 1)) es

def nameStrBytes : List (Bytes × Nat) → Bytes
  | [] => []
  | e :: es => (e.1 ++ [0]) ++ nameStrBytes es

def nameOrdBytes : List (Bytes × Nat) → Bytes
  | [] => []
  | e :: es => leBytes 2 e.2 ++ nameOrdBytes es

theorem nameRvaBytes_length (va ps : Nat) (es : List (Bytes × Nat)) : (nameRvaBytes va ps es).length = 4 * es.length := by
  induction es generalizing ps with
  | nil => rfl
  | cons e es ih => simp only [nameRvaBytes, List.length_append, leBytes_length, ih, List.length_cons]; omega

theorem nameOrdBytes_length (es : List (Bytes × Nat)) : (nameOrdBytes es).length = 2 * es.length := by
  induction es with
  | nil => rfl
  | cons e es ih => simp only [nameOrdBytes, List.length_append, leBytes_length, ih, List.length_cons]; omega

theorem nameStrBytes_length (es : List (Bytes × Nat)) :
    (nameStrBytes es).length = (es.map (fun e => e.1.length + 1)).sum := by
  induction es with
  | nil => rfl
  | cons e es ih => simp only [nameStrBytes, List.length_append, ih, List.map_cons, List.sum_cons, List.length_singleton]

theorem writeExportNames_spec (va : Nat) : ∀ (es : List (Bytes × Nat)) (d : Bytes) (pr ps po : Nat),
    va + d.length < 2 ^ 32 → pr + 4 * es.length ≤ d.length → ps + (nameStrBytes es).length ≤ po → po + 2 * es.length ≤ pr →
    ∃ d', writeExportNames va d pr ps po es = .ok d' ∧ At d' pr (nameRvaBytes va ps es) ∧ At d' ps (nameStrBytes es) ∧
      At d' po (nameOrdBytes es) ∧ Mod d d' (fun i => (pr ≤ i ∧ i < pr + 4 * es.length) ∨
        (ps ≤ i ∧ i < ps + (nameStrBytes es).length) ∨ (po ≤ i ∧ i < po + 2 * es.length)) := by
  intro es
  induction es with
  | nil =>
    intro d pr ps po _ h1 h2 h3
    simp only [nameStrBytes, List.length_nil] at h1 h2 h3
    refine ⟨d, rfl, ⟨?_, ?_⟩, ⟨?_, ?_⟩, ⟨?_, ?_⟩, Mod.refl _ _⟩ <;>
      first | rfl | (simp only [nameRvaBytes, nameStrBytes, nameOrdBytes, List.length_nil]; omega)
  | cons e es ih =>
    intro d pr ps po h0 h1 h2 h3
    simp only [nameStrBytes, List.length_append, List.length_cons] at h1 h2 h3 ⊢
    have w1 : w32 (va + ps) = va + ps := by rw [w32, Nat.mod_eq_of_lt (by omega)]
    have w2 : w32 (pr + 4) = pr + 4 := by rw [w32, Nat.mod_eq_of_lt (by omega)]
    have w3 : w32 (ps + (e.1.length + 1)) = ps + (e.1.length + 1) := by rw [w32, Nat.mod_eq_of_lt (by omega)]
    have w4 : w32 (po + 2) = po + 2 := by rw [w32, Nat.mod_eq_of_lt (by omega)]
    obtain ⟨d1, e1, a1, m1⟩ := writeAt_mod (b := d) (o := pr) (x := leBytes 4 (va + ps)) (by rw [leBytes_length]; omega)
    obtain ⟨d2, e2, a2, m2⟩ := writeAt_mod (b := d1) (o := ps) (x := e.1 ++ [0]) (by
      rw [m1.len]; simp only [List.length_append, List.length_singleton]; omega)
    obtain ⟨d3, e3, a3, m3⟩ := writeAt_mod (b := d2) (o := po) (x := leBytes 2 e.2) (by
      rw [m2.len, m1.len, leBytes_length]; omega)
    simp only [List.length_append, List.length_singleton, leBytes_length] at m1 m2 m3
    have hl3 : d3.length = d.length := by rw [m3.len, m2.len, m1.len]
    obtain ⟨d4, e4, b1, b2, b3, m4⟩ := ih d3 (pr + 4) (ps + (e.1.length + 1)) (po + 2) (by omega) (by omega) (by omega) (by omega)
    have c1 : At d4 pr (leBytes 4 (va + ps)) := by
      refine m4.at (m3.at (m2.at a1 ?_) ?_) ?_ <;> rw [leBytes_length] <;> intro i _ _ <;> omega
    have c2 : At d4 ps (e.1 ++ [0]) := by
      refine m4.at (m3.at a2 ?_) ?_ <;> simp only [List.length_append, List.length_singleton] <;> intro i _ _ <;> omega
    have c3 : At d4 po (leBytes 2 e.2) := by
      refine m4.at a3 ?_; rw [leBytes_length]; intro i _ _; omega
    refine ⟨d4, ?_, ?_, ?_, ?_, ?_⟩
    · rw [writeExportNames, w1, e1, ok_bind, e2, ok_bind, e3, ok_bind, w2, w3, w4, e4]
    · exact at_append c1 (by rw [leBytes_length]; exact b1)
    · exact at_append c2 (by simpa only [List.length_append, List.length_singleton] using b2)
    · exact at_append c3 (by rw [leBytes_length]; exact b3)
    · refine Mod.mono (((m1.trans m2).trans m3).trans m4) ?_
      intro i hi
      omega

/-- The scan of the name ordinals. -/
theorem exportName_scan {p : Image} {va : Nat} {m : Bytes} {s : Sec} (h : Window p va m s) (ordinal : Nat) (pr0 po0 : Nat) :
    ∀ (es : List (Bytes × Nat)) (ps i : Nat), At m (pr0 + i * 4) (nameRvaBytes va ps es) → At m ps (nameStrBytes es) →
      At m (po0 + i * 2) (nameOrdBytes es) → ps + (nameStrBytes es).length + 1 ≤ m.length →
      (∀ e ∈ es, e.2 < 2 ^ 16 ∧ ∀ c ∈ e.1, c ≠ 0) →
      p.exportName (va + po0) (va + pr0) ordinal es.length i =
        .ok ((es.find? (fun e => e.2 == ordinal)).map Prod.fst) := by
  intro es
  induction es with
  | nil => intro ps i _ _ _ _ _; rfl
  | cons e es ih =>
    intro ps i h1 h2 h3 h4 h5
    have hf := h.fin
    simp only [nameRvaBytes] at h1
    simp only [nameStrBytes] at h2 h4
    simp only [nameOrdBytes] at h3
    have l1 := h1.1
    have l3 := h3.1
    simp only [List.length_append, List.length_singleton, leBytes_length] at l1 l3 h4
    obtain ⟨o1, o2⟩ := h5 e List.mem_cons_self
    rw [List.length_cons, Image.exportName]
    rw [show w32 (va + po0 + i * 2) = va + (po0 + i * 2) by rw [w32, Nat.mod_eq_of_lt (by omega)]; omega,
      h.readInt_at true h3.left (by omega) (by omega), ok_bind]
    by_cases hc : ordinal = e.2
    · rw [if_pos hc, show w32 (va + pr0 + i * 4) = va + (pr0 + i * 4) by rw [w32, Nat.mod_eq_of_lt (by omega)]; omega,
        h.readInt_at true h1.left (by omega) (by omega), ok_bind, h.exportStr h2.left (by omega) o2, ok_bind,
        List.find?_cons_of_pos (by simp [hc])]
      rfl
    · rw [if_neg hc, List.find?_cons_of_neg (by simp; omega)]
      refine ih (ps + (e.1.length + 1)) (i + 1) (h1.right (by rw [leBytes_length]; omega))
        (h2.right (by simp only [List.length_append, List.length_singleton])) (h3.right (by rw [leBytes_length]; omega))
        (by omega) (fun e he => h5 e (List.mem_cons_of_mem _ he))

/-! ### The address table -/

/-- The address table from the ordinal `nx` on, and the forward strings. -/
def addrBytes (va : Nat) : (nx pf : Nat) → List ExportFn → Bytes
  | _, _, [] => []
  | nx, pf, f :: fs => zeros (4 * (f.ordinal - nx)) ++ (leBytes 4 (if f.fwd ≠ [] then va + pf else f.rva) ++
      addrBytes va (f.ordinal + 1) (pf + strSize f.fwd) fs)

def fwdBytes : List ExportFn → Bytes
  | [] => []
  | f :: fs => (if f.fwd ≠ [] then f.fwd ++ [0] else []) ++ fwdBytes fs

theorem fwdBytes_length (l : List ExportFn) : (fwdBytes l).length = (l.map (fun f => strSize f.fwd)).sum := by
  induction l with
  | nil => rfl
  | cons f l ih =>
    simp only [fwdBytes, List.length_append, ih, List.map_cons, List.sum_cons, strSize]
    by_cases hf : f.fwd = []
    · rw [if_neg (by simp [hf]), if_pos hf]; rfl
    · rw [if_pos hf, if_neg hf]; simp

/-- The number of slots from `nx` to the last function. -/
def slotCount : Nat → List ExportFn → Nat
  | _, [] => 0
  | nx, f :: fs => (f.ordinal - nx) + 1 + slotCount (f.ordinal + 1) fs

theorem addrBytes_length (va : Nat) (nx pf : Nat) (l : List ExportFn) : (addrBytes va nx pf l).length = 4 * slotCount nx l := by
  induction l generalizing nx pf with
  | nil => rfl
  | cons f l ih => simp only [addrBytes, slotCount, List.length_append, zeros_length, leBytes_length, ih]; omega

theorem writeExportFns_spec (va : Nat) : ∀ (l : List ExportFn) (d : Bytes) (pa pf last nx : Nat),
    va + d.length < 2 ^ 32 → pf + (fwdBytes l).length ≤ pa → pa + 4 * slotCount nx l ≤ d.length →
    (nx = last + 1 ∨ nx = last ∧ ∀ f, l.head? = some f → f.ordinal = last) →
    (∀ f ∈ l, nx ≤ f.ordinal) → l.Pairwise (fun a b => a.ordinal < b.ordinal) →
    ∃ d', writeExportFns va d pa pf last l = .ok d' ∧ At d' pa (addrBytes va nx pf l) ∧ At d' pf (fwdBytes l) ∧
      Mod d d' (fun i => (pf ≤ i ∧ i < pf + (fwdBytes l).length) ∨ (pa ≤ i ∧ i < pa + 4 * slotCount nx l)) := by
  intro l
  induction l with
  | nil =>
    intro d pa pf last nx _ h1 h2 _ _ _
    simp only [fwdBytes, slotCount, List.length_nil] at h1 h2
    refine ⟨d, rfl, ⟨?_, rfl⟩, ⟨?_, rfl⟩, Mod.refl _ _⟩ <;> simp only [addrBytes, fwdBytes, List.length_nil] <;> omega
  | cons f l ih =>
    intro d pa pf last nx h0 h1 h2 h3 h4 h5
    have hnx := h4 f List.mem_cons_self
    have hgap : (if f.ordinal > last then f.ordinal - last - 1 else 0) = f.ordinal - nx := by
      rcases h3 with h3 | ⟨h3, h6⟩
      · rw [if_pos (by omega)]; omega
      · rw [if_neg (by have := h6 f rfl; omega)]; have := h6 f rfl; omega
    have hlast : (if f.ordinal > last then f.ordinal else last) = f.ordinal := by
      rcases h3 with h3 | ⟨h3, h6⟩
      · rw [if_pos (by omega)]
      · rw [if_neg (by have := h6 f rfl; omega)]; exact (h6 f rfl).symm
    rw [List.pairwise_cons] at h5
    have hfl : (fwdBytes (f :: l)).length = strSize f.fwd + (fwdBytes l).length := by
      rw [fwdBytes_length, fwdBytes_length]; rfl
    rw [hfl] at h1 ⊢
    simp only [slotCount] at h2 ⊢
    rw [writeExportFns]
    dsimp only
    rw [hgap, hlast]
    obtain ⟨d1, e1, a1, m1⟩ := writeAt_mod (b := d) (o := pa) (x := zeros (4 * (f.ordinal - nx))) (by rw [zeros_length]; omega)
    rw [zeros_length] at m1
    have w1 : w32 (pa + 4 * (f.ordinal - nx)) = pa + 4 * (f.ordinal - nx) := by rw [w32, Nat.mod_eq_of_lt (by omega)]
    have w2 : w32 (va + pf) = va + pf := by rw [w32, Nat.mod_eq_of_lt (by omega)]
    rw [e1, ok_bind, w1]
    have hl1 := m1.len
    generalize hpa' : pa + 4 * (f.ordinal - nx) = pa' at *
    have w3 : w32 (pa' + 4) = pa' + 4 := by rw [w32, Nat.mod_eq_of_lt (by omega)]
    obtain ⟨d2, e2, a2, m2⟩ := writeAt_mod (b := d1) (o := pa') (x := leBytes 4 (if f.fwd ≠ [] then va + pf else f.rva))
      (by rw [leBytes_length]; omega)
    rw [leBytes_length] at m2
    have hl2 := m2.len
    by_cases hfw : f.fwd = []
    · have hsz : strSize f.fwd = 0 := by unfold strSize; rw [if_pos hfw]
      rw [hsz, Nat.zero_add] at h1
      rw [if_neg (by simp [hfw])]
      rw [if_neg (by simp [hfw])] at e2 a2
      rw [e2, ok_bind, w3]
      obtain ⟨d4, e4, b1, b2, m4⟩ := ih d2 (pa' + 4) pf f.ordinal (f.ordinal + 1) (by omega) (by omega) (by omega)
        (Or.inl rfl) (fun g hg => h5.1 g hg) h5.2
      have c1 : At d4 pa (zeros (4 * (f.ordinal - nx))) := by
        refine m4.at (m2.at a1 ?_) ?_ <;> rw [zeros_length] <;> intro i _ _ <;> omega
      have c2 : At d4 pa' (leBytes 4 f.rva) := by
        refine m4.at a2 ?_; rw [leBytes_length]; intro i _ _; omega
      refine ⟨d4, e4, ?_, ?_, ?_⟩
      · rw [addrBytes, if_neg (by simp [hfw]), hsz]
        refine at_append c1 (at_append ?_ ?_)
        · rw [zeros_length, hpa']; exact c2
        · rw [zeros_length, hpa', leBytes_length]; exact b1
      · rw [fwdBytes, if_neg (by simp [hfw])]; exact b2
      · refine Mod.mono ((m1.trans m2).trans m4) ?_
        intro i hi
        omega
    · have hsz : strSize f.fwd = f.fwd.length + 1 := by unfold strSize; rw [if_neg hfw]
      rw [hsz] at h1
      rw [if_pos hfw]
      rw [if_pos hfw] at e2 a2
      obtain ⟨d3, e3, a3, m3⟩ := writeAt_mod (b := d2) (o := pf) (x := f.fwd ++ [0]) (by
        simp only [List.length_append, List.length_singleton]; omega)
      simp only [List.length_append, List.length_singleton] at m3
      have hl3 := m3.len
      have w4 : w32 (pf + (f.fwd.length + 1)) = pf + (f.fwd.length + 1) := by rw [w32, Nat.mod_eq_of_lt (by omega)]
      rw [w2, e2, ok_bind, e3, ok_bind, w3, w4]
      obtain ⟨d4, e4, b1, b2, m4⟩ := ih d3 (pa' + 4) (pf + (f.fwd.length + 1)) f.ordinal (f.ordinal + 1) (by omega) (by omega)
        (by omega) (Or.inl rfl) (fun g hg => h5.1 g hg) h5.2
      have c1 : At d4 pa (zeros (4 * (f.ordinal - nx))) := by
        refine m4.at (m3.at (m2.at a1 ?_) ?_) ?_ <;> rw [zeros_length] <;> intro i _ _ <;> omega
      have c2 : At d4 pa' (leBytes 4 (va + pf)) := by
        refine m4.at (m3.at a2 ?_) ?_ <;> rw [leBytes_length] <;> intro i _ _ <;> omega
      have c3 : At d4 pf (f.fwd ++ [0]) := by
        refine m4.at a3 ?_; simp only [List.length_append, List.length_singleton]; intro i _ _; omega
      refine ⟨d4, e4, ?_, ?_, ?_⟩
      · rw [addrBytes, if_pos hfw, hsz]
        refine at_append c1 (at_append ?_ ?_)
        · rw [zeros_length, hpa']; exact c2
        · rw [zeros_length, hpa', leBytes_length]; exact b1
      · rw [fwdBytes, if_pos hfw]
        exact at_append c3 (by simpa only [List.length_append, List.length_singleton] using b2)
      · refine Mod.mono (((m1.trans m2).trans m3).trans m4) ?_
        intro i hi
        omega

/-! ### Reading the address table -/

/-- What is read back: forwarded functions get the address of the forward string. -/
def readBack (va base : Nat) : Nat → List ExportFn → List ExportFn
  | _, [] => []
  | pf, f :: fs =>
    { ordinal := f.ordinal, rva := if f.fwd ≠ [] then va + pf else f.rva, name := f.name,
      nameOrdinal := if f.name = [] then 0 else f.ordinal - base, fwd := f.fwd } :: readBack va base (pf + strSize f.fwd) fs

theorem exportLoop_skip {p : Image} {va : Nat} {m : Bytes} {s : Sec} (h : Window p va m s) {d : Bytes} (dr dsz : Nat) {P : Nat}
    (hd : rd 4 d 28 = va + P) (n : Nat) : ∀ (g k : Nat), At m (P + k * 4) (zeros (4 * g)) →
    p.exportLoop d dr dsz (g + n) k = p.exportLoop d dr dsz n (k + g) := by
  intro g
  have hf := h.fin
  induction g with
  | zero => intro k _; simp
  | succ g ih =>
    intro k hat
    have hz : zeros (4 * (g + 1)) = leBytes 4 0 ++ zeros (4 * g) := by
      rw [leBytes_zero]; unfold zeros; rw [List.replicate_append_replicate]; congr 1; omega
    rw [hz] at hat
    have hl := hat.1
    simp only [List.length_append, leBytes_length, zeros_length] at hl
    rw [show g + 1 + n = (g + n) + 1 by omega, Image.exportLoop, hd,
      show w32 (va + P + k * 4) = va + (P + k * 4) by rw [w32, Nat.mod_eq_of_lt (by omega)]; omega,
      h.readInt_at true hat.left (by omega) (by omega), ok_bind, if_pos rfl,
      ih (k + 1) (hat.right (by rw [leBytes_length]; omega))]
    congr 1; omega

theorem exportLoop_eq {p : Image} {va : Nat} {m : Bytes} {s : Sec} (h : Window p va m s) {d : Bytes} {start size P base : Nat}
    (hd : rd 4 d 28 = va + P) (hb : rd 4 d 16 = base) (hfin : va + start + size < 2 ^ 32) :
    ∀ (l : List ExportFn) (nx pf : Nat), base ≤ nx → At m (P + (nx - base) * 4) (addrBytes va nx pf l) →
    At m pf (fwdBytes l) → start + 4 ≤ pf → pf + (fwdBytes l).length + 1 ≤ start + size → start + size ≤ m.length →
    (∀ f ∈ l, nx ≤ f.ordinal) → l.Pairwise (fun a b => a.ordinal < b.ordinal) → (∀ f ∈ l, f.Writable) →
    (∀ f ∈ l, f.name ≠ [] → f.fwd = [] → ¬ (va + start + 4 ≤ f.rva ∧ f.rva < va + start + size)) →
    (∀ f ∈ l, p.exportName (rd 4 d 36) (rd 4 d 32) (f.ordinal - base) (rd 4 d 24) 0 =
      .ok (if f.name = [] then none else some f.name)) →
    p.exportLoop d (va + start) size (slotCount nx l) (nx - base) = .ok (readBack va base pf l) := by
  intro l
  have hf := h.fin
  induction l with
  | nil => intro nx pf _ _ _ _ _ _ _ _ _ _ _; rfl
  | cons f l ih =>
    intro nx pf hbn hA hF hs1 hs2 hs3 hnx hpw hok hrange hname
    have hnx' := hnx f List.mem_cons_self
    obtain ⟨o1, o2, o3, o4, o5⟩ := hok f List.mem_cons_self
    have hname' := hname f List.mem_cons_self
    have hrange' := hrange f List.mem_cons_self
    rw [List.pairwise_cons] at hpw
    rw [addrBytes] at hA
    have hfl : (fwdBytes (f :: l)).length = strSize f.fwd + (fwdBytes l).length := by
      rw [fwdBytes_length, fwdBytes_length]; rfl
    rw [hfl] at hs2
    have hl := hA.1
    simp only [List.length_append, zeros_length, leBytes_length] at hl
    have hB := hA.right (n := P + (f.ordinal - base) * 4) (by rw [zeros_length]; omega)
    have hC := hB.right (n := P + (f.ordinal + 1 - base) * 4) (by rw [leBytes_length]; omega)
    have hFr : At m (pf + strSize f.fwd) (fwdBytes l) := by
      rw [fwdBytes] at hF
      refine hF.right ?_
      unfold strSize
      by_cases hfw : f.fwd = []
      · rw [if_pos hfw, if_neg (by simp [hfw])]; rfl
      · rw [if_neg hfw, if_pos hfw]; simp
    have hih := ih (f.ordinal + 1) (pf + strSize f.fwd) (by omega) hC hFr (by omega) (by omega) hs3
      (fun g hg => hpw.1 g hg) hpw.2 (fun g hg => hok g (List.mem_cons_of_mem _ hg))
      (fun g hg => hrange g (List.mem_cons_of_mem _ hg)) (fun g hg => hname g (List.mem_cons_of_mem _ hg))
    rw [slotCount, show f.ordinal - nx + 1 + slotCount (f.ordinal + 1) l = (f.ordinal - nx) + (slotCount (f.ordinal + 1) l + 1) by omega,
      exportLoop_skip h _ _ hd _ _ _ hA.left, show nx - base + (f.ordinal - nx) = f.ordinal - base by omega,
      Image.exportLoop, hd,
      show w32 (va + P + (f.ordinal - base) * 4) = va + (P + (f.ordinal - base) * 4) by
        rw [w32, Nat.mod_eq_of_lt (by omega)]; omega]
    have hval : (if f.fwd ≠ [] then va + pf else f.rva) < 2 ^ 32 ∧ (if f.fwd ≠ [] then va + pf else f.rva) ≠ 0 := by
      by_cases hfw : f.fwd = []
      · rw [if_neg (by simp [hfw])]; exact ⟨(o2 hfw).2, (o2 hfw).1⟩
      · rw [if_pos hfw]; omega
    rw [h.readInt_at true hB.left (by omega) (by omega), ok_bind, if_neg hval.2]
    rw [throwIf_neg (by
      rw [hb]; unfold isSumSafe w32
      rw [decide_eq_true (by omega), Nat.mod_eq_of_lt (by omega)]
      simp; omega), ok_bind]
    dsimp only
    rw [hname', ok_bind]
    have hord : w16 (f.ordinal - base + rd 4 d 16) = f.ordinal := by rw [hb, w16, Nat.mod_eq_of_lt (by omega)]; omega
    have hk : f.ordinal - base + 1 = f.ordinal + 1 - base := by omega
    rw [hk, hord]
    by_cases hnm : f.name = []
    · have hfw : f.fwd = [] := Decidable.byContradiction (fun hc => o3 hc hnm)
      rw [if_pos hnm]
      dsimp only
      rw [hih, ok_bind, readBack]
      simp [hnm, hfw]
    · rw [if_neg hnm]
      dsimp only
      have hfwd : p.exportFwd (va + start) size (if f.fwd ≠ [] then va + pf else f.rva) = .ok f.fwd := by
        unfold Image.exportFwd
        rw [show w32 (va + start + size) = va + start + size by rw [w32, Nat.mod_eq_of_lt hfin]]
        by_cases hfw : f.fwd = []
        · rw [if_neg (by rw [if_neg (by simp [hfw])]; have := hrange' hnm hfw; omega), hfw]
        · have hsz : strSize f.fwd = f.fwd.length + 1 := by unfold strSize; rw [if_neg hfw]
          rw [if_pos hfw, if_pos (by omega)]
          rw [fwdBytes, if_pos hfw] at hF
          exact h.exportStr hF.left (by omega) o5
      rw [hfwd, ok_bind, hih, ok_bind, readBack, if_neg hnm]

end PE
