/-
Facts about the memory of resource trees.
-/
import Verif.Model.ResourceObjects
import Verif.Spec.ResourceObjects
import Verif.Lemmas.Basic
namespace PE

abbrev Cells := Nat → Option RCell

mutual
/-- The object `o` stands for the entry `e` and owns exactly the addresses `S`. -/
def Rep (c : Cells) : EObj → ResEntry → (Nat → Prop) → Prop
  | o, .empty k, S => o.key = k ∧ o.ptr = 0 ∧ ∀ a, ¬ S a
  | o, .data k cp d, S => o.key = k ∧ o.incl = true ∧ o.ptr ≠ 0 ∧ c o.ptr = some (.data cp d) ∧ ∀ a, S a ↔ a = o.ptr
  | o, .dir k h es, S => o.key = k ∧ o.incl = false ∧ o.ptr ≠ 0 ∧
    ∃ os T, c o.ptr = some (.dir h os) ∧ RepL c os es T ∧ ¬ T o.ptr ∧ ∀ a, S a ↔ (a = o.ptr ∨ T a)
/-- The same for the elements of a vector, which own different addresses. -/
def RepL (c : Cells) : List EObj → List ResEntry → (Nat → Prop) → Prop
  | os, [], S => os = [] ∧ ∀ a, ¬ S a
  | os, e :: es, S => ∃ o os' T U, os = o :: os' ∧ Rep c o e T ∧ RepL c os' es U ∧ (∀ a, T a → ¬ U a) ∧ ∀ a, S a ↔ (T a ∨ U a)
end

mutual
theorem Rep.congr {c c2 : Cells} {o : EObj} {S S2 : Nat → Prop} (hc : ∀ a, S a → c2 a = c a) (hS : ∀ a, S2 a ↔ S a) :
    (e : ResEntry) → Rep c o e S → Rep c2 o e S2
  | .empty k, h => by
    simp only [Rep] at h ⊢
    exact ⟨h.1, h.2.1, fun a ha => h.2.2 a ((hS a).mp ha)⟩
  | .data k cp d, h => by
    simp only [Rep] at h ⊢
    obtain ⟨h1, h2, h3, h4, h5⟩ := h
    exact ⟨h1, h2, h3, by rw [hc _ ((h5 _).mpr rfl), h4], fun a => (hS a).trans (h5 a)⟩
  | .dir k hd es, h => by
    simp only [Rep] at h ⊢
    obtain ⟨h1, h2, h3, os, T, h4, h5, h6, h7⟩ := h
    refine ⟨h1, h2, h3, os, T, by rw [hc _ ((h7 _).mpr (.inl rfl)), h4], ?_, h6, fun a => (hS a).trans (h7 a)⟩
    exact RepL.congr (fun a ha => hc a ((h7 a).mpr (.inr ha))) (fun _ => Iff.rfl) es h5
theorem RepL.congr {c c2 : Cells} {os : List EObj} {S S2 : Nat → Prop} (hc : ∀ a, S a → c2 a = c a) (hS : ∀ a, S2 a ↔ S a) :
    (es : List ResEntry) → RepL c os es S → RepL c2 os es S2
  | [], h => by
    simp only [RepL] at h ⊢
    exact ⟨h.1, fun a ha => h.2 a ((hS a).mp ha)⟩
  | e :: es, h => by
    simp only [RepL] at h ⊢
    obtain ⟨o, os', T, U, h1, h2, h3, h4, h5⟩ := h
    exact ⟨o, os', T, U, h1, Rep.congr (fun a ha => hc a ((h5 a).mpr (.inl ha))) (fun _ => Iff.rfl) e h2,
      RepL.congr (fun a ha => hc a ((h5 a).mpr (.inr ha))) (fun _ => Iff.rfl) es h3, h4, fun a => (hS a).trans (h5 a)⟩
end

mutual
/-- The addresses an object owns are determined. -/
theorem Rep.uniq {c : Cells} {o : EObj} {S S2 : Nat → Prop} :
    (e : ResEntry) → Rep c o e S → Rep c o e S2 → ∀ a, S a ↔ S2 a
  | .empty k, h, h' => by
    simp only [Rep] at h h'
    exact fun a => ⟨fun x => absurd x (h.2.2 a), fun x => absurd x (h'.2.2 a)⟩
  | .data k cp d, h, h' => by
    simp only [Rep] at h h'
    exact fun a => (h.2.2.2.2 a).trans (h'.2.2.2.2 a).symm
  | .dir k hd es, h, h' => by
    simp only [Rep] at h h'
    obtain ⟨h1, h2, h3, os, T, h4, h5, h6, h7⟩ := h
    obtain ⟨g1, g2, g3, os', T', g4, g5, g6, g7⟩ := h'
    rw [h4] at g4
    cases g4
    intro a
    rw [h7, g7, RepL.uniq es h5 g5 a]
theorem RepL.uniq {c : Cells} {os : List EObj} {S S2 : Nat → Prop} :
    (es : List ResEntry) → RepL c os es S → RepL c os es S2 → ∀ a, S a ↔ S2 a
  | [], h, h' => by
    simp only [RepL] at h h'
    exact fun a => ⟨fun x => absurd x (h.2 a), fun x => absurd x (h'.2 a)⟩
  | e :: es, h, h' => by
    simp only [RepL] at h h'
    obtain ⟨o, os', T, U, h1, h2, h3, h4, h5⟩ := h
    obtain ⟨o2, os2, T2, U2, g1, g2, g3, g4, g5⟩ := h'
    rw [h1] at g1
    cases g1
    intro a
    rw [h5, g5, Rep.uniq e h2 g2 a, RepL.uniq es h3 g3 a]
end

mutual
theorem Rep.mem {c : Cells} {o : EObj} {S : Nat → Prop} {a : Nat} (ha : S a) : (e : ResEntry) → Rep c o e S → c a ≠ none
  | .empty k, h => by simp only [Rep] at h; exact absurd ha (h.2.2 a)
  | .data k cp d, h => by
    simp only [Rep] at h
    rw [(h.2.2.2.2 a).mp ha, h.2.2.2.1]
    exact fun x => by cases x
  | .dir k hd es, h => by
    simp only [Rep] at h
    obtain ⟨h1, h2, h3, os, T, h4, h5, h6, h7⟩ := h
    cases (h7 a).mp ha with
    | inl e => rw [e, h4]; exact fun x => by cases x
    | inr t => exact RepL.mem t es h5
theorem RepL.mem {c : Cells} {os : List EObj} {S : Nat → Prop} {a : Nat} (ha : S a) :
    (es : List ResEntry) → RepL c os es S → c a ≠ none
  | [], h => by simp only [RepL] at h; exact absurd ha (h.2 a)
  | e :: es, h => by
    simp only [RepL] at h
    obtain ⟨o, os', T, U, h1, h2, h3, h4, h5⟩ := h
    cases (h5 a).mp ha with
    | inl t => exact Rep.mem t e h2
    | inr u => exact RepL.mem u es h3
end

/-! ### The depth of a tree -/

mutual
def ResEntry.deep : ResEntry → Nat
  | .empty _ => 0
  | .data _ _ _ => 0
  | .dir _ _ es => deepL es + 1
def deepL : List ResEntry → Nat
  | [] => 0
  | e :: es => max e.deep (deepL es)
end

mutual
theorem Rep.chain {c : Cells} {o : EObj} {S : Nat → Prop} :
    (e : ResEntry) → Rep c o e S → ∃ l : List Nat, l.Nodup ∧ (∀ a ∈ l, S a) ∧ l.length = e.deep
  | .empty k, _ => ⟨[], List.nodup_nil, fun _ h => absurd h List.not_mem_nil, by simp [ResEntry.deep]⟩
  | .data k cp d, _ => ⟨[], List.nodup_nil, fun _ h => absurd h List.not_mem_nil, by simp [ResEntry.deep]⟩
  | .dir k hd es, h => by
    simp only [Rep] at h
    obtain ⟨h1, h2, h3, os, T, h4, h5, h6, h7⟩ := h
    obtain ⟨l, l1, l2, l3⟩ := RepL.chain es h5
    refine ⟨o.ptr :: l, List.nodup_cons.mpr ⟨fun hm => h6 (l2 _ hm), l1⟩, ?_, by simp [ResEntry.deep, l3]⟩
    intro a ha
    cases List.mem_cons.mp ha with
    | inl e => exact (h7 a).mpr (.inl e)
    | inr t => exact (h7 a).mpr (.inr (l2 a t))
theorem RepL.chain {c : Cells} {os : List EObj} {S : Nat → Prop} :
    (es : List ResEntry) → RepL c os es S → ∃ l : List Nat, l.Nodup ∧ (∀ a ∈ l, S a) ∧ l.length = deepL es
  | [], _ => ⟨[], List.nodup_nil, fun _ h => absurd h List.not_mem_nil, by simp [deepL]⟩
  | e :: es, h => by
    simp only [RepL] at h
    obtain ⟨o, os', T, U, h1, h2, h3, h4, h5⟩ := h
    obtain ⟨l, l1, l2, l3⟩ := Rep.chain e h2
    obtain ⟨m, m1, m2, m3⟩ := RepL.chain es h3
    by_cases hc : e.deep ≤ deepL es
    · exact ⟨m, m1, fun a ha => (h5 a).mpr (.inr (m2 a ha)), by simp only [deepL]; omega⟩
    · exact ⟨l, l1, fun a ha => (h5 a).mpr (.inl (l2 a ha)), by simp only [deepL]; omega⟩
end

theorem nodup_length_le (n : Nat) : ∀ l : List Nat, l.Nodup → (∀ a ∈ l, a < n) → l.length ≤ n := by
  induction n with
  | zero =>
    intro l _ h
    cases l with
    | nil => exact Nat.le_refl _
    | cons a l => exact absurd (h a List.mem_cons_self) (Nat.not_lt_zero _)
  | succ n ih =>
    intro l hn h
    have h1 : (l.erase n).length ≤ n := by
      refine ih _ (hn.erase n) ?_
      intro a ha
      have := h a (List.mem_of_mem_erase ha)
      have ne : a ≠ n := fun e => by subst e; exact (hn.not_mem_erase) ha
      omega
    by_cases hm : n ∈ l
    · rw [List.length_erase_of_mem hm] at h1; omega
    · rw [List.erase_of_not_mem hm] at h1; omega

/-- A memory as it comes from `new` and `delete`. -/
structure Heap.Ok (h : Heap RCell) : Prop where
  pos : 0 < h.next
  null : h.cells 0 = none
  top : ∀ a, h.next ≤ a → h.cells a = none

theorem Heap.Ok.lt {h : Heap RCell} (k : h.Ok) {a : Nat} (ha : h.cells a ≠ none) : a < h.next :=
  Nat.lt_of_not_le fun hl => ha (k.top a hl)

theorem Rep.deep_lt {h : Heap RCell} (k : h.Ok) {o : EObj} {e : ResEntry} {S : Nat → Prop} (r : Rep h.cells o e S) :
    e.deep < h.next := by
  obtain ⟨l, l1, l2, l3⟩ := Rep.chain e r
  have h0 : (0 : Nat) ∉ l := fun hm => (Rep.mem (l2 0 hm) e r) k.null
  have := nodup_length_le h.next (0 :: l) (List.nodup_cons.mpr ⟨h0, l1⟩) (by
    intro a ha
    cases List.mem_cons.mp ha with
    | inl e => rw [e]; exact k.pos
    | inr t => exact k.lt (Rep.mem (l2 a t) e r))
  simp only [List.length_cons] at this
  omega

theorem RepL.deep_lt {h : Heap RCell} (k : h.Ok) {os : List EObj} {es : List ResEntry} {S : Nat → Prop} (r : RepL h.cells os es S) :
    deepL es < h.next := by
  obtain ⟨l, l1, l2, l3⟩ := RepL.chain es r
  have h0 : (0 : Nat) ∉ l := fun hm => (RepL.mem (l2 0 hm) es r) k.null
  have := nodup_length_le h.next (0 :: l) (List.nodup_cons.mpr ⟨h0, l1⟩) (by
    intro a ha
    cases List.mem_cons.mp ha with
    | inl e => rw [e]; exact k.pos
    | inr t => exact k.lt (RepL.mem (l2 a t) es r))
  simp only [List.length_cons] at this
  omega

/-! ### Copying -/

/-- `h'` is `h` with new objects at the addresses `S`. -/
structure Copied (h h' : Heap RCell) (S : Nat → Prop) : Prop where
  ok : h'.Ok
  le : h.next ≤ h'.next
  old : ∀ a, a < h.next → h'.cells a = h.cells a
  new : ∀ a, S a ↔ (h.next ≤ a ∧ h'.cells a ≠ none)

theorem Copied.refl {h : Heap RCell} (k : h.Ok) {S : Nat → Prop} (hS : ∀ a, ¬ S a) : Copied h h S :=
  ⟨k, Nat.le_refl _, fun _ _ => rfl, fun a => ⟨fun x => absurd x (hS a), fun x => absurd (k.top a x.1) x.2⟩⟩

theorem Copied.keep {h h' : Heap RCell} {S : Nat → Prop} (k : h.Ok) (c : Copied h h' S) {a : Nat} (ha : h.cells a ≠ none) :
    h'.cells a = h.cells a := c.old a (k.lt ha)

theorem Copied.trans {h h1 h2 : Heap RCell} {S T : Nat → Prop} (a : Copied h h1 S) (b : Copied h1 h2 T) :
    Copied h h2 (fun x => S x ∨ T x) := by
  refine ⟨b.ok, Nat.le_trans a.le b.le, fun x hx => ?_, fun x => ?_⟩
  · rw [b.old x (Nat.lt_of_lt_of_le hx a.le), a.old x hx]
  · constructor
    · rintro (hs | ht)
      · have := (a.new x).mp hs
        refine ⟨this.1, ?_⟩
        rw [b.old x (a.ok.lt this.2)]
        exact this.2
      · have := (b.new x).mp ht
        exact ⟨Nat.le_trans a.le this.1, this.2⟩
    · rintro ⟨g1, g2⟩
      by_cases hx : x < h1.next
      · refine .inl ((a.new x).mpr ⟨g1, ?_⟩)
        rw [← b.old x hx]
        exact g2
      · exact .inr ((b.new x).mpr ⟨Nat.le_of_not_lt hx, g2⟩)

theorem Copied.alloc {h h' : Heap RCell} {S : Nat → Prop} (c : Copied h h' S) (v : RCell) :
    Copied h (h'.alloc v).2 (fun a => a = h'.next ∨ S a) := by
  refine ⟨⟨Nat.succ_pos _, ?_, ?_⟩, Nat.le_succ_of_le c.le, ?_, ?_⟩
  · show (if 0 = h'.next then _ else _) = none
    rw [if_neg (Nat.ne_of_lt c.ok.pos), c.ok.null]
  · intro a ha
    have ha : h'.next + 1 ≤ a := ha
    show (if a = h'.next then _ else _) = none
    rw [if_neg (by omega), c.ok.top a (by omega)]
  · intro a ha
    show (if a = h'.next then _ else _) = _
    rw [if_neg (by have := c.le; omega), c.old a ha]
  · intro a
    show _ ↔ _ ∧ (if a = h'.next then _ else _) ≠ none
    by_cases e : a = h'.next
    · rw [if_pos e]
      exact ⟨fun _ => ⟨by rw [e]; exact c.le, fun x => by cases x⟩, fun _ => .inl e⟩
    · rw [if_neg e, ← c.new a]
      exact ⟨fun x => x.resolve_left e, .inr⟩

theorem RepL.nil {c : Cells} {S : Nat → Prop} (hS : ∀ a, ¬ S a) : RepL c [] [] S := by
  simp only [RepL]
  exact ⟨trivial, hS⟩

theorem RepL.cons {c : Cells} {o : EObj} {os : List EObj} {e : ResEntry} {es : List ResEntry} {T U : Nat → Prop}
    (h1 : Rep c o e T) (h2 : RepL c os es U) (h3 : ∀ a, T a → ¬ U a) : RepL c (o :: os) (e :: es) (fun a => T a ∨ U a) := by
  simp only [RepL]
  exact ⟨o, os, T, U, rfl, h1, h2, h3, fun _ => Iff.rfl⟩

/-- Cells of a copied directory. -/
theorem Rep.ofDir {c : Cells} {o : EObj} {k : ResKey} {hd : ResHdr} {os : List EObj} {es : List ResEntry} {T : Nat → Prop}
    (h1 : o.key = k) (h2 : o.incl = false) (h3 : o.ptr ≠ 0) (h4 : c o.ptr = some (.dir hd os)) (h5 : RepL c os es T)
    (h6 : ¬ T o.ptr) : Rep c o (.dir k hd es) (fun a => a = o.ptr ∨ T a) := by
  simp only [Rep]
  exact ⟨h1, h2, h3, os, T, h4, h5, h6, fun _ => Iff.rfl⟩

mutual
theorem copyPtr_ok {n : Nat} {h : Heap RCell} {o : EObj} {S : Nat → Prop} (k : h.Ok) : (e : ResEntry) → e.deep < n →
    Rep h.cells o e S → ∃ q h' S', copyPtr n h o.incl o.ptr = .ok (q, h') ∧ Copied h h' S' ∧
      Rep h'.cells { o with ptr := q } e S'
  | .empty key, hn, r => by
    simp only [Rep] at r
    obtain ⟨m, rfl⟩ : ∃ m, n = m + 1 := ⟨n - 1, by omega⟩
    refine ⟨0, h, fun _ => False, ?_, Copied.refl k (fun _ x => x), ?_⟩
    · rw [copyPtr, if_pos r.2.1]
    · simp only [Rep]
      exact ⟨r.1, trivial, fun _ x => x⟩
  | .data key cp d, hn, r => by
    simp only [Rep] at r
    obtain ⟨r1, r2, r3, r4, r5⟩ := r
    obtain ⟨m, rfl⟩ : ∃ m, n = m + 1 := ⟨n - 1, by omega⟩
    refine ⟨h.next, (h.alloc (.data cp d)).2, fun a => a = h.next ∨ False, ?_,
      (Copied.refl k (fun _ x => x)).alloc _, ?_⟩
    · rw [copyPtr, if_neg r3, if_pos r2]
      unfold Heap.dataAt
      rw [r4]
      rfl
    · simp only [Rep]
      refine ⟨r1, r2, Nat.ne_of_gt k.pos, ?_, fun a => by simp⟩
      show (if h.next = h.next then _ else _) = _
      rw [if_pos rfl]
  | .dir key hd es, hn, r => by
    simp only [Rep] at r
    obtain ⟨r1, r2, r3, os, T, r4, r5, r6, r7⟩ := r
    obtain ⟨m, rfl⟩ : ∃ m, n = m + 1 := ⟨n - 1, by omega⟩
    simp only [ResEntry.deep] at hn
    obtain ⟨os', h', S', e1, e2, e3⟩ := copyEs_ok k es (by omega : deepL es < m) r5
    refine ⟨h'.next, (h'.alloc (.dir hd os')).2, fun a => a = h'.next ∨ S' a, ?_, e2.alloc _, ?_⟩
    · rw [copyPtr, if_neg r3, if_neg (by rw [r2]; exact Bool.false_ne_true)]
      unfold Heap.dirAt
      rw [r4]
      show (copyEs (copyObj m) h os >>= _) = _
      rw [e1]
      rfl
    · refine Rep.ofDir r1 r2 (Nat.ne_of_gt e2.ok.pos) (os := os') ?_ ?_ ?_
      · show (if h'.next = h'.next then _ else _) = _
        rw [if_pos rfl]
      · refine RepL.congr (fun a ha => ?_) (fun _ => Iff.rfl) es e3
        show (if a = h'.next then _ else _) = _
        have := e2.ok.lt (RepL.mem ha es e3)
        rw [if_neg (by omega)]
      · intro ha
        exact Nat.lt_irrefl _ (e2.ok.lt (RepL.mem ha es e3))
theorem copyEs_ok {n : Nat} {h : Heap RCell} {os : List EObj} {S : Nat → Prop} (k : h.Ok) : (es : List ResEntry) → deepL es < n →
    RepL h.cells os es S → ∃ os' h' S', copyEs (copyObj n) h os = .ok (os', h') ∧ Copied h h' S' ∧ RepL h'.cells os' es S'
  | [], hn, r => by
    simp only [RepL] at r
    rw [r.1]
    exact ⟨[], h, fun _ => False, rfl, Copied.refl k (fun _ x => x), RepL.nil (fun _ x => x)⟩
  | e :: es, hn, r => by
    simp only [RepL] at r
    obtain ⟨o, os1, T, U, rfl, r2, r3, r4, r5⟩ := r
    simp only [deepL] at hn
    obtain ⟨q, h1, T', e1, e2, e3⟩ := copyPtr_ok k e (by omega : e.deep < n) r2
    have r3' : RepL h1.cells os1 es U := RepL.congr (fun a ha => e2.keep k (RepL.mem ha es r3)) (fun _ => Iff.rfl) es r3
    obtain ⟨os2, h2, U', g1, g2, g3⟩ := copyEs_ok e2.ok es (by omega : deepL es < n) r3'
    refine ⟨{ o with ptr := q } :: os2, h2, fun a => T' a ∨ U' a, ?_, e2.trans g2, ?_⟩
    · rw [copyEs]
      unfold copyObj
      rw [e1]
      show (copyEs (copyObj n) h1 os1 >>= _) = _
      rw [g1]
      rfl
    · refine RepL.cons (Rep.congr (fun a ha => g2.keep e2.ok (Rep.mem ha e e3)) (fun _ => Iff.rfl) e e3) g3 ?_
      intro a ha hb
      have := e2.ok.lt (Rep.mem ha e e3)
      have := ((g2.new a).mp hb).1
      omega
end

/-! ### Destroying -/

/-- `h'` is `h` with nothing at the addresses `S`. -/
structure Released (h h' : Heap RCell) (S : Nat → Prop) : Prop where
  next : h'.next = h.next
  gone : ∀ a, S a → h'.cells a = none
  kept : ∀ a, ¬ S a → h'.cells a = h.cells a

theorem Released.ok {h h' : Heap RCell} {S : Nat → Prop} (k : h.Ok) (r : Released h h' S) : h'.Ok := by
  have key : ∀ a, h.cells a = none → h'.cells a = none := by
    intro a ha
    rcases Classical.em (S a) with hs | hs
    · exact r.gone a hs
    · rw [r.kept a hs, ha]
  exact ⟨by rw [r.next]; exact k.pos, key 0 k.null, fun a ha => key a (k.top a (by rw [r.next] at ha; exact ha))⟩

theorem Released.refl (h : Heap RCell) {S : Nat → Prop} (hS : ∀ a, ¬ S a) : Released h h S :=
  ⟨rfl, fun a ha => absurd ha (hS a), fun _ _ => rfl⟩

mutual
theorem releasePtr_ok {n : Nat} {h : Heap RCell} {o : EObj} {S : Nat → Prop} : (e : ResEntry) → e.deep < n →
    Rep h.cells o e S → ∃ h', releasePtr n h o.incl o.ptr = .ok h' ∧ Released h h' S
  | .empty key, hn, r => by
    simp only [Rep] at r
    obtain ⟨m, rfl⟩ : ∃ m, n = m + 1 := ⟨n - 1, by omega⟩
    exact ⟨h, by rw [releasePtr, if_pos r.2.1], Released.refl h r.2.2⟩
  | .data key cp d, hn, r => by
    simp only [Rep] at r
    obtain ⟨r1, r2, r3, r4, r5⟩ := r
    obtain ⟨m, rfl⟩ : ∃ m, n = m + 1 := ⟨n - 1, by omega⟩
    refine ⟨h.free o.ptr, ?_, rfl, ?_, ?_⟩
    · rw [releasePtr, if_neg r3, if_pos r2]
      unfold Heap.dataAt
      rw [r4]
      rfl
    · intro a ha
      show (if a = o.ptr then _ else _) = _
      rw [if_pos ((r5 a).mp ha)]
    · intro a ha
      show (if a = o.ptr then _ else _) = _
      rw [if_neg (fun x => ha ((r5 a).mpr x))]
  | .dir key hd es, hn, r => by
    simp only [Rep] at r
    obtain ⟨r1, r2, r3, os, T, r4, r5, r6, r7⟩ := r
    obtain ⟨m, rfl⟩ : ∃ m, n = m + 1 := ⟨n - 1, by omega⟩
    simp only [ResEntry.deep] at hn
    obtain ⟨h', e1, e2⟩ := releaseEs_ok es (by omega : deepL es < m) r5
    refine ⟨h'.free o.ptr, ?_, e2.next, ?_, ?_⟩
    · rw [releasePtr, if_neg r3, if_neg (by rw [r2]; exact Bool.false_ne_true)]
      unfold Heap.dirAt
      rw [r4]
      show (releaseEs (releaseObj m) h os >>= _) = _
      rw [e1]
      rfl
    · intro a ha
      show (if a = o.ptr then _ else _) = _
      by_cases e : a = o.ptr
      · rw [if_pos e]
      · rw [if_neg e]
        exact e2.gone a (((r7 a).mp ha).resolve_left e)
    · intro a ha
      show (if a = o.ptr then _ else _) = _
      rw [if_neg (fun x => ha ((r7 a).mpr (.inl x)))]
      exact e2.kept a (fun x => ha ((r7 a).mpr (.inr x)))
theorem releaseEs_ok {n : Nat} {h : Heap RCell} {os : List EObj} {S : Nat → Prop} : (es : List ResEntry) → deepL es < n →
    RepL h.cells os es S → ∃ h', releaseEs (releaseObj n) h os = .ok h' ∧ Released h h' S
  | [], hn, r => by
    simp only [RepL] at r
    rw [r.1]
    exact ⟨h, rfl, Released.refl h r.2⟩
  | e :: es, hn, r => by
    simp only [RepL] at r
    obtain ⟨o, os1, T, U, rfl, r2, r3, r4, r5⟩ := r
    simp only [deepL] at hn
    obtain ⟨h1, e1, e2⟩ := releasePtr_ok e (by omega : e.deep < n) r2
    have r3' : RepL h1.cells os1 es U :=
      RepL.congr (fun a ha => e2.kept a (fun x => r4 a x ha)) (fun _ => Iff.rfl) es r3
    obtain ⟨h2, g1, g2⟩ := releaseEs_ok es (by omega : deepL es < n) r3'
    refine ⟨h2, ?_, by rw [g2.next, e2.next], ?_, ?_⟩
    · rw [releaseEs]
      unfold releaseObj
      rw [e1]
      exact g1
    · intro a ha
      rcases (r5 a).mp ha with ht | hu
      · rw [g2.kept a (r4 a ht), e2.gone a ht]
      · exact g2.gone a hu
    · intro a ha
      rw [g2.kept a (fun x => ha ((r5 a).mpr (.inr x))), e2.kept a (fun x => ha ((r5 a).mpr (.inl x)))]
end

/-! ### Entries inside of a tree -/

theorem RepL.length {c : Cells} {os : List EObj} {es : List ResEntry} {T : Nat → Prop} (r : RepL c os es T) :
    os.length = es.length := by
  induction es generalizing os T with
  | nil => simp only [RepL] at r; rw [r.1]; rfl
  | cons e es ih =>
    simp only [RepL] at r
    obtain ⟨o, os1, T1, U, rfl, r2, r3, r4, r5⟩ := r
    rw [List.length_cons, List.length_cons, ih r3]

theorem RepL.get {c : Cells} {os : List EObj} {es : List ResEntry} {T : Nat → Prop} {i : Nat} {e : ResEntry}
    (r : RepL c os es T) (hi : es[i]? = some e) : ∃ o Ti, os[i]? = some o ∧ Rep c o e Ti ∧ (∀ a, Ti a → T a) ∧
      ∀ c2 o2 e2 S2, (∀ b, T b → ¬ Ti b → c2 b = c b) → Rep c2 o2 e2 S2 → (∀ b, S2 b → T b → Ti b) →
        RepL c2 (os.set i o2) (es.set i e2) (fun b => (T b ∧ ¬ Ti b) ∨ S2 b) := by
  induction es generalizing os T i with
  | nil => cases hi
  | cons e' es ih =>
    simp only [RepL] at r
    obtain ⟨o, os1, T1, U, rfl, r2, r3, r4, r5⟩ := r
    cases i with
    | zero =>
      simp only [List.getElem?_cons_zero, Option.some.injEq] at hi
      subst hi
      refine ⟨o, T1, rfl, r2, fun a ha => (r5 a).mpr (.inl ha), ?_⟩
      intro c2 o2 e2 S2 h1 h2 h3
      simp only [List.set_cons_zero, RepL]
      refine ⟨o2, os1, S2, U, rfl, h2, ?_, ?_, ?_⟩
      · exact RepL.congr (fun a ha => h1 a ((r5 a).mpr (.inr ha)) (fun x => r4 a x ha)) (fun _ => Iff.rfl) es r3
      · intro a ha hu
        exact r4 a (h3 a ha ((r5 a).mpr (.inr hu))) hu
      · intro a
        rw [r5]
        constructor
        · rintro (⟨h | h, h'⟩ | h)
          · exact absurd h h'
          · exact .inr h
          · exact .inl h
        · rintro (h | h)
          · exact .inr h
          · exact .inl ⟨.inr h, fun x => r4 a x h⟩
    | succ i =>
      simp only [List.getElem?_cons_succ] at hi
      obtain ⟨o', Ti, g1, g2, g3, g4⟩ := ih r3 hi
      refine ⟨o', Ti, g1, g2, fun a ha => (r5 a).mpr (.inr (g3 a ha)), ?_⟩
      intro c2 o2 e2 S2 h1 h2 h3
      simp only [List.set_cons_succ, RepL]
      refine ⟨o, os1.set i o2, T1, _, rfl, ?_, g4 c2 o2 e2 S2 ?_ h2 ?_, ?_, ?_⟩
      · exact Rep.congr (fun a ha => h1 a ((r5 a).mpr (.inl ha)) (fun x => r4 a ha (g3 a x))) (fun _ => Iff.rfl) e' r2
      · exact fun b hb hb' => h1 b ((r5 b).mpr (.inr hb)) hb'
      · exact fun b hb hb' => h3 b hb ((r5 b).mpr (.inr hb'))
      · rintro a ha (⟨hu, -⟩ | hs)
        · exact r4 a ha hu
        · exact r4 a ha (g3 a (h3 a hs ((r5 a).mpr (.inl ha))))
      · intro a
        rw [r5]
        constructor
        · rintro (⟨h | h, h'⟩ | h)
          · exact .inl h
          · exact .inr (.inl ⟨h, h'⟩)
          · exact .inr (.inr h)
        · rintro (h | ⟨h, h'⟩ | h)
          · exact .inl ⟨.inl h, fun x => r4 a h (g3 a x)⟩
          · exact .inl ⟨.inr h, h'⟩
          · exact .inr h

/-- Different elements of a vector own different addresses. -/
theorem RepL.two {c : Cells} {os : List EObj} {es : List ResEntry} {T : Nat → Prop} {i j : Nat} {o1 o2 : EObj} {e1 e2 : ResEntry}
    {T1 T2 : Nat → Prop} (r : RepL c os es T) (hij : i ≠ j) (ho1 : os[i]? = some o1) (he1 : es[i]? = some e1)
    (ho2 : os[j]? = some o2) (he2 : es[j]? = some e2) (r1 : Rep c o1 e1 T1) (r2 : Rep c o2 e2 T2) : ∀ a, T1 a → ¬ T2 a := by
  induction es generalizing os T i j with
  | nil => cases he1
  | cons e' es ih =>
    simp only [RepL] at r
    obtain ⟨o, os1, T', U, rfl, q2, q3, q4, q5⟩ := r
    have sub : ∀ {k : Nat} {x : EObj} {y : ResEntry} {W : Nat → Prop}, os1[k]? = some x → es[k]? = some y → Rep c x y W →
        ∀ a, W a → U a := by
      intro k x y W hx hy hw a ha
      obtain ⟨x', W', g1, g2, g3, -⟩ := q3.get hy
      rw [hx] at g1
      cases g1
      exact g3 a ((Rep.uniq y hw g2 a).mp ha)
    cases i with
    | zero =>
      cases j with
      | zero => exact absurd rfl hij
      | succ j =>
        simp only [List.getElem?_cons_zero, Option.some.injEq, List.getElem?_cons_succ] at ho1 he1 ho2 he2
        subst ho1 he1
        intro a ha hb
        exact q4 a ((Rep.uniq _ r1 q2 a).mp ha) (sub ho2 he2 r2 a hb)
    | succ i =>
      cases j with
      | zero =>
        simp only [List.getElem?_cons_zero, Option.some.injEq, List.getElem?_cons_succ] at ho1 he1 ho2 he2
        subst ho2 he2
        intro a ha hb
        exact q4 a ((Rep.uniq _ r2 q2 a).mp hb) (sub ho1 he1 r1 a ha)
      | succ j =>
        simp only [List.getElem?_cons_succ] at ho1 he1 ho2 he2
        exact ih q3 (fun x => hij (by rw [x])) ho1 he1 ho2 he2

theorem walk_nil {h : Heap RCell} {o : EObj} {i : Nat} {hd : ResHdr} {os : List EObj} {oc : EObj} (h2 : o.incl = false)
    (h3 : o.ptr ≠ 0) (h4 : h.cells o.ptr = some (.dir hd os)) (hi : os[i]? = some oc) : h.walk o i [] = .ok (o.ptr, i) := by
  rw [Heap.walk]
  unfold EObj.dirPtr
  rw [if_neg (by rintro (x | x); exact h3 x; rw [h2] at x; cases x)]
  show (h.dirAt o.ptr >>= _) = _
  unfold Heap.dirAt
  rw [h4]
  show (match os[i]? with | some _ => _ | none => _) = _
  rw [hi]

theorem walk_cons {h : Heap RCell} {o : EObj} {i j : Nat} {l : List Nat} {hd : ResHdr} {os : List EObj} {oc : EObj}
    (h2 : o.incl = false) (h3 : o.ptr ≠ 0) (h4 : h.cells o.ptr = some (.dir hd os)) (hi : os[i]? = some oc) :
    h.walk o i (j :: l) = h.walk oc j l := by
  rw [Heap.walk]
  unfold EObj.dirPtr
  rw [if_neg (by rintro (x | x); exact h3 x; rw [h2] at x; cases x)]
  show (h.dirAt o.ptr >>= _) = _
  unfold Heap.dirAt
  rw [h4]
  show (match os[i]? with | some c => _ | none => _) = _
  rw [hi]

/-- The way `i :: l` from the object `o` for `e` leads to the element `j` of the directory at `a`, the object `o1` for `e1`. -/
structure Focus (h : Heap RCell) (o : EObj) (e : ResEntry) (i : Nat) (l : List Nat) (a j : Nat) (o1 : EObj) (e1 : ResEntry)
    (S1 : Nat → Prop) : Prop where
  walk : h.walk o i l = .ok (a, j)
  cell : ∃ hd os, h.cells a = some (.dir hd os) ∧ os[j]? = some o1
  isAt : ResEntry.at (i :: l) e = some e1
  rep : Rep h.cells o1 e1 S1

theorem at_dir {i : Nat} {l : List Nat} {e e1 : ResEntry} (h : ResEntry.at (i :: l) e = some e1) :
    ∃ k hd es c, e = .dir k hd es ∧ es[i]? = some c ∧ ResEntry.at l c = some e1 := by
  rw [ResEntry.at] at h
  cases e with
  | empty k => simp [ResEntry.kids] at h
  | data k cp d => simp [ResEntry.kids] at h
  | dir k hd es =>
    simp only [ResEntry.kids] at h
    cases hc : es[i]? with
    | none => rw [hc] at h; cases h
    | some c => rw [hc] at h; exact ⟨k, hd, es, c, rfl, hc, h⟩

/-- Every way in a tree leads to an object. -/
theorem focus {h : Heap RCell} (l : List Nat) : ∀ {i : Nat} {o : EObj} {e e1 : ResEntry} {S : Nat → Prop},
    Rep h.cells o e S → ResEntry.at (i :: l) e = some e1 → ∃ a j o1 S1, Focus h o e i l a j o1 e1 S1 ∧
      S a ∧ ¬ S1 a ∧ (∀ b, S1 b → S b) ∧
      ∀ (h2 : Heap RCell) o2 e2 S2, (∀ hd os, h.cells a = some (.dir hd os) → h2.cells a = some (.dir hd (os.set j o2))) →
        (∀ b, S b → ¬ S1 b → b ≠ a → h2.cells b = h.cells b) → Rep h2.cells o2 e2 S2 → (∀ b, S2 b → S b → S1 b) →
        Rep h2.cells o (ResEntry.putAt e2 (i :: l) e) (fun b => (S b ∧ ¬ S1 b) ∨ S2 b) ∧ h2.walk o i l = .ok (a, j) := by
  induction l with
  | nil =>
    intro i o e e1 S r hat
    obtain ⟨k, hd, es, c, rfl, hc, hat'⟩ := at_dir hat
    simp only [ResEntry.at, Option.some.injEq] at hat'
    subst hat'
    have r' := r
    simp only [Rep] at r
    obtain ⟨r1, r2, r3, os, T, r4, r5, r6, r7⟩ := r
    obtain ⟨oc, Ti, g1, g2, g3, g4⟩ := r5.get hc
    refine ⟨o.ptr, i, oc, Ti, ⟨walk_nil r2 r3 r4 g1, ⟨hd, os, r4, g1⟩, hat, g2⟩, (r7 _).mpr (.inl rfl), fun x => r6 (g3 _ x),
      fun b hb => (r7 b).mpr (.inr (g3 b hb)), ?_⟩
    intro h2 o2 e2 S2 q1 q2 q3 q4
    have q1' := q1 hd os r4
    have hlt : i < os.length := by
      rw [List.getElem?_eq_some_iff] at g1
      exact g1.1
    refine ⟨?_, walk_nil (oc := o2) r2 r3 q1' (by rw [List.getElem?_set_self hlt])⟩
    rw [ResEntry.putAt, hc]
    simp only [Rep]
    refine ⟨r1, r2, r3, os.set i o2, fun b => (T b ∧ ¬ Ti b) ∨ S2 b, q1', ?_, ?_, ?_⟩
    · rw [ResEntry.putAt]
      refine g4 h2.cells o2 e2 S2 ?_ q3 ?_
      · exact fun b hb hb' => q2 b ((r7 b).mpr (.inr hb)) hb' (fun x => r6 (by rw [← x]; exact hb))
      · exact fun b hb hb' => q4 b hb ((r7 b).mpr (.inr hb'))
    · rintro (⟨x, -⟩ | x)
      · exact r6 x
      · exact r6 (g3 _ (q4 _ x ((r7 _).mpr (.inl rfl))))
    · intro b
      rw [r7]
      constructor
      · rintro (⟨x | x, y⟩ | x)
        · exact .inl x
        · exact .inr (.inl ⟨x, y⟩)
        · exact .inr (.inr x)
      · rintro (x | ⟨x, y⟩ | x)
        · exact .inl ⟨.inl x, fun y => r6 (by rw [← x]; exact g3 _ y)⟩
        · exact .inl ⟨.inr x, y⟩
        · exact .inr x
  | cons k' l ih =>
    intro i o e e1 S r hat
    obtain ⟨k, hd, es, c, rfl, hc, hat'⟩ := at_dir hat
    have r' := r
    simp only [Rep] at r
    obtain ⟨r1, r2, r3, os, T, r4, r5, r6, r7⟩ := r
    obtain ⟨oc, Ti, g1, g2, g3, g4⟩ := r5.get hc
    obtain ⟨a, j, o1, S1, f1, f2, f3, f4, f5⟩ := ih g2 hat'
    have hsub : ∀ b, S1 b → S b := fun b hb => (r7 b).mpr (.inr (g3 b (f4 b hb)))
    refine ⟨a, j, o1, S1, ⟨?_, f1.cell, hat, f1.rep⟩, (r7 a).mpr (.inr (g3 a f2)), f3, hsub, ?_⟩
    · rw [walk_cons r2 r3 r4 g1]; exact f1.walk
    intro h2 o2 e2 S2 q1 q2 q3 q4
    have hne : o.ptr ≠ a := fun x => r6 (by rw [x]; exact g3 a f2)
    have hnS : ¬ S1 o.ptr := fun x => r6 (g3 _ (f4 _ x))
    have hroot : h2.cells o.ptr = some (.dir hd os) := by rw [q2 o.ptr ((r7 _).mpr (.inl rfl)) hnS hne, r4]
    obtain ⟨w1, w2⟩ := f5 h2 o2 e2 S2 q1 (fun b hb hb' hb'' => q2 b ((r7 b).mpr (.inr (g3 b hb))) hb' hb'') q3
      (fun b hb hb' => q4 b hb ((r7 b).mpr (.inr (g3 b hb'))))
    refine ⟨?_, by rw [walk_cons r2 r3 hroot g1]; exact w2⟩
    rw [ResEntry.putAt, hc]
    simp only [Rep]
    have hset : os.set i oc = os := by
      rw [List.getElem?_eq_some_iff] at g1
      obtain ⟨hlt, rfl⟩ := g1
      exact List.set_getElem_self hlt
    have w3 := g4 h2.cells oc _ _ ?_ w1 ?_
    · rw [hset] at w3
      refine ⟨r1, r2, r3, os, _, hroot, w3, ?_, ?_⟩
      · rintro (⟨x, -⟩ | ⟨x, -⟩ | x)
        · exact r6 x
        · exact r6 (g3 _ x)
        · exact hnS (q4 _ x ((r7 _).mpr (.inl rfl)))
      · intro b
        rw [r7]
        constructor
        · rintro (⟨x | x, y⟩ | x)
          · exact .inl x
          · rcases Classical.em (Ti b) with t | t
            · exact .inr (.inr (.inl ⟨t, y⟩))
            · exact .inr (.inl ⟨x, t⟩)
          · exact .inr (.inr (.inr x))
        · rintro (x | ⟨x, y⟩ | ⟨x, y⟩ | x)
          · exact .inl ⟨.inl x, by rw [x]; exact hnS⟩
          · exact .inl ⟨.inr x, fun z => y (f4 b z)⟩
          · exact .inl ⟨.inr (g3 b x), y⟩
          · exact .inr x
    · intro b hb hb'
      exact q2 b ((r7 b).mpr (.inr hb)) (fun x => hb' (f4 b x)) (fun x => hb' (by rw [x]; exact f2))
    · rintro b (⟨x, -⟩ | x) hb
      · exact x
      · exact f4 b (q4 b x ((r7 b).mpr (.inr hb)))

theorem Focus.unique {h : Heap RCell} {o : EObj} {e : ResEntry} {i : Nat} {l : List Nat} {a j a' j' : Nat} {o1 o1' : EObj}
    {e1 e1' : ResEntry} {S1 S1' : Nat → Prop} (f : Focus h o e i l a j o1 e1 S1) (f' : Focus h o e i l a' j' o1' e1' S1') :
    a = a' ∧ j = j' ∧ o1 = o1' ∧ e1 = e1' ∧ ∀ b, S1 b ↔ S1' b := by
  have hw := f.walk
  rw [f'.walk] at hw
  cases hw
  have ha := f.isAt
  rw [f'.isAt] at ha
  cases ha
  obtain ⟨hd, os, c1, c2⟩ := f.cell
  obtain ⟨hd', os', c1', c2'⟩ := f'.cell
  rw [c1] at c1'
  cases c1'
  rw [c2] at c2'
  cases c2'
  exact ⟨rfl, rfl, rfl, rfl, Rep.uniq _ f.rep f'.rep⟩

theorem Focus.inside {h : Heap RCell} {o : EObj} {e : ResEntry} {i : Nat} {l : List Nat} {a j : Nat} {o1 : EObj} {e1 : ResEntry}
    {S S1 : Nat → Prop} (r : Rep h.cells o e S) (f : Focus h o e i l a j o1 e1 S1) : S a ∧ ¬ S1 a ∧ ∀ b, S1 b → S b := by
  obtain ⟨a', j', o1', S1', f', g1, g2, g3, -⟩ := focus l r f.isAt
  obtain ⟨rfl, rfl, rfl, -, hs⟩ := f.unique f'
  exact ⟨g1, fun x => g2 ((hs _).mp x), fun b hb => g3 b ((hs b).mp hb)⟩

/-- The first step. -/
theorem Focus.child {h : Heap RCell} {o : EObj} {k : ResKey} {hd : ResHdr} {es : List ResEntry} {i : Nat} {l : List Nat} {a j : Nat}
    {o1 : EObj} {e1 : ResEntry} {S1 T : Nat → Prop} {os : List EObj} (h2 : o.incl = false) (h3 : o.ptr ≠ 0)
    (h4 : h.cells o.ptr = some (.dir hd os)) (h5 : RepL h.cells os es T) (f : Focus h o (.dir k hd es) i l a j o1 e1 S1) :
    ∃ oc ec Ti, os[i]? = some oc ∧ es[i]? = some ec ∧ Rep h.cells oc ec Ti ∧ (∀ b, Ti b → T b) ∧ (∀ b, S1 b → Ti b) ∧
      ((l = [] ∧ a = o.ptr ∧ j = i) ∨ (∃ k' l', l = k' :: l' ∧ Focus h oc ec k' l' a j o1 e1 S1 ∧ Ti a)) := by
  obtain ⟨k0, hd0, es0, ec, heq, hc, hat'⟩ := at_dir f.isAt
  cases heq
  obtain ⟨oc, Ti, g1, g2, g3, -⟩ := h5.get hc
  refine ⟨oc, ec, Ti, g1, hc, g2, g3, ?_⟩
  cases l with
  | nil =>
    have hw := f.walk
    rw [walk_nil h2 h3 h4 g1] at hw
    cases hw
    simp only [ResEntry.at, Option.some.injEq] at hat'
    subst hat'
    obtain ⟨hd', os', c1, c2⟩ := f.cell
    rw [h4] at c1
    cases c1
    rw [g1] at c2
    cases c2
    exact ⟨fun b hb => (Rep.uniq _ f.rep g2 b).mp hb, .inl ⟨rfl, rfl, rfl⟩⟩
  | cons k' l =>
    have hf : Focus h oc ec k' l a j o1 e1 S1 := ⟨by rw [← walk_cons h2 h3 h4 g1]; exact f.walk, f.cell, hat', f.rep⟩
    have := hf.inside g2
    exact ⟨this.2.2, .inr ⟨k', l, rfl, hf, this.1⟩⟩

/-- The directory that holds an entry does not belong to the other entry, unless the first is inside of the other. -/
theorem Focus.sep {h : Heap RCell} (l : List Nat) : ∀ {l' : List Nat} {i i' : Nat} {o : EObj} {e : ResEntry} {S : Nat → Prop}
    {a j b j' : Nat} {o1 o2 : EObj} {e1 e2 : ResEntry} {S1 S2 : Nat → Prop}, Rep h.cells o e S →
    Focus h o e i l a j o1 e1 S1 → Focus h o e i' l' b j' o2 e2 S2 → ¬ (i :: l <+: i' :: l' ∧ l ≠ l') → ¬ S1 b := by
  induction l with
  | nil =>
    intro l' i i' o e S a j b j' o1 o2 e1 e2 S1 S2 r f f' hn
    obtain ⟨k, hd, es, c, rfl, -, -⟩ := at_dir f.isAt
    simp only [Rep] at r
    obtain ⟨r1, r2, r3, os, T, r4, r5, r6, r7⟩ := r
    obtain ⟨oc, ec, Ti, g1, g2, g3, g4, g5, -⟩ := f.child r2 r3 r4 r5
    obtain ⟨oc', ec', Ti', g1', g2', g3', g4', -, g6'⟩ := f'.child r2 r3 r4 r5
    intro hb
    rcases g6' with ⟨-, rfl, -⟩ | ⟨k', l2, rfl, -, hT⟩
    · exact r6 (g4 _ (g5 _ hb))
    · by_cases hi : i = i'
      · subst hi
        exact hn ⟨by simp, by simp⟩
      · exact RepL.two r5 hi g1 g2 g1' g2' g3 g3' b (g5 b hb) hT
  | cons k0 l ih =>
    intro l' i i' o e S a j b j' o1 o2 e1 e2 S1 S2 r f f' hn
    obtain ⟨k, hd, es, c, rfl, -, -⟩ := at_dir f.isAt
    simp only [Rep] at r
    obtain ⟨r1, r2, r3, os, T, r4, r5, r6, r7⟩ := r
    obtain ⟨oc, ec, Ti, g1, g2, g3, g4, g5, g6⟩ := f.child r2 r3 r4 r5
    obtain ⟨oc', ec', Ti', g1', g2', g3', g4', -, g6'⟩ := f'.child r2 r3 r4 r5
    intro hb
    rcases g6' with ⟨-, rfl, -⟩ | ⟨k', l2, rfl, hf', hT⟩
    · exact r6 (g4 _ (g5 _ hb))
    · by_cases hi : i = i'
      · subst hi
        rw [g1] at g1'
        cases g1'
        rw [g2] at g2'
        cases g2'
        rcases g6 with ⟨h, -⟩ | ⟨k1, l1, heq, hf, -⟩
        · cases h
        · cases heq
          refine ih g3 hf hf' ?_ hb
          rintro ⟨hp, hne⟩
          refine hn ⟨(List.prefix_cons_inj i).mpr hp, ?_⟩
          intro x
          exact hne (List.cons.inj x).2
      · exact RepL.two r5 hi g1 g2 g1' g2' g3 g3' b (g5 b hb) hT

/-- Entries of which neither is inside of the other have nothing in common. -/
theorem Focus.apart {h : Heap RCell} (l : List Nat) : ∀ {l' : List Nat} {i i' : Nat} {o : EObj} {e : ResEntry} {S : Nat → Prop}
    {a j b j' : Nat} {o1 o2 : EObj} {e1 e2 : ResEntry} {S1 S2 : Nat → Prop}, Rep h.cells o e S →
    Focus h o e i l a j o1 e1 S1 → Focus h o e i' l' b j' o2 e2 S2 → ApartW (i :: l) (i' :: l') →
    ¬ (a = b ∧ j = j') ∧ ∀ x, S1 x → ¬ S2 x := by
  induction l with
  | nil =>
    intro l' i i' o e S a j b j' o1 o2 e1 e2 S1 S2 r f f' hn
    obtain ⟨k, hd, es, c, rfl, -, -⟩ := at_dir f.isAt
    simp only [Rep] at r
    obtain ⟨r1, r2, r3, os, T, r4, r5, r6, r7⟩ := r
    obtain ⟨oc, ec, Ti, g1, g2, g3, g4, g5, g6⟩ := f.child r2 r3 r4 r5
    obtain ⟨oc', ec', Ti', g1', g2', g3', g4', g5', g6'⟩ := f'.child r2 r3 r4 r5
    have hi : i ≠ i' := fun x => hn.1 (by rw [x]; simp)
    have hd' := RepL.two r5 hi g1 g2 g1' g2' g3 g3'
    refine ⟨?_, fun x hx hy => hd' x (g5 x hx) (g5' x hy)⟩
    rintro ⟨rfl, rfl⟩
    rcases g6 with ⟨-, rfl, rfl⟩ | ⟨_, _, h, _⟩
    · rcases g6' with ⟨-, -, rfl⟩ | ⟨k', l2, rfl, -, hT⟩
      · exact hi rfl
      · exact r6 (g4' _ hT)
    · cases h
  | cons k0 l ih =>
    intro l' i i' o e S a j b j' o1 o2 e1 e2 S1 S2 r f f' hn
    obtain ⟨k, hd, es, c, rfl, -, -⟩ := at_dir f.isAt
    simp only [Rep] at r
    obtain ⟨r1, r2, r3, os, T, r4, r5, r6, r7⟩ := r
    obtain ⟨oc, ec, Ti, g1, g2, g3, g4, g5, g6⟩ := f.child r2 r3 r4 r5
    obtain ⟨oc', ec', Ti', g1', g2', g3', g4', g5', g6'⟩ := f'.child r2 r3 r4 r5
    rcases g6 with ⟨h, -⟩ | ⟨k1, l1, heq, hf, hTa⟩
    · cases h
    cases heq
    by_cases hi : i = i'
    · subst hi
      rw [g1] at g1'
      cases g1'
      rw [g2] at g2'
      cases g2'
      rcases g6' with ⟨rfl, -, -⟩ | ⟨k', l2, rfl, hf', hT⟩
      · exact absurd (by simp) hn.2
      · refine ih g3 hf hf' ⟨fun x => hn.1 ((List.prefix_cons_inj i).mpr x), fun x => hn.2 ((List.prefix_cons_inj i).mpr x)⟩
    · have hd' := RepL.two r5 hi g1 g2 g1' g2' g3 g3'
      refine ⟨?_, fun x hx hy => hd' x (g5 x hx) (g5' x hy)⟩
      rintro ⟨rfl, rfl⟩
      rcases g6' with ⟨-, rfl, rfl⟩ | ⟨k', l2, rfl, -, hT⟩
      · exact r6 (g4 _ hTa)
      · exact hd' a hTa hT

end PE
