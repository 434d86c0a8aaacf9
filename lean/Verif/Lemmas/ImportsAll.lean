/-
Helper lemmas: writing an import directory with all settings.
-/
import Verif.Spec.ImportsAll
import Verif.Lemmas.ImportsRound

namespace PE

/-! ### Images with overwritten tables -/

theorem Retabled.refl (p : Image) (i : Nat) (R : Nat → Prop) : Retabled p p i R :=
  ⟨rfl, rfl, rfl, fun _ s h => ⟨s.data, h, rfl, fun _ _ => rfl⟩⟩

theorem Retabled.mono {p p' : Image} {i : Nat} {R T : Nat → Prop} (h : Retabled p p' i R) (hs : ∀ x, R x → T x) : Retabled p p' i T :=
  ⟨h.rest, h.own, h.count, fun j s hj => by
    obtain ⟨d, h1, h2, h3⟩ := h.secs j s hj
    exact ⟨d, h1, h2, fun k hk => h3 k (fun h => hk (hs _ h))⟩⟩

theorem Retabled.trans {p p' p'' : Image} {i : Nat} {R T : Nat → Prop} (h : Retabled p p' i R) (h' : Retabled p' p'' i T) :
    Retabled p p'' i (fun x => R x ∨ T x) := by
  refine ⟨?_, h'.own.trans h.own, h'.count.trans h.count, fun j s hj => ?_⟩
  · rw [h'.rest, h.rest]
  · obtain ⟨d, h1, h2, h3⟩ := h.secs j s hj
    obtain ⟨e, g1, g2, g3⟩ := h'.secs j _ h1
    exact ⟨e, g1, g2.trans h2, fun k hk => (g3 k (fun x => hk (Or.inr x))).trans (h3 k (fun x => hk (Or.inl x)))⟩

theorem Retabled.kind {p p' : Image} {i : Nat} {R : Nat → Prop} (h : Retabled p p' i R) : p'.kind = p.kind := by rw [h.rest]
theorem Retabled.hdr {p p' : Image} {i : Nat} {R : Nat → Prop} (h : Retabled p p' i R) : p'.hdrData = p.hdrData := by rw [h.rest]
theorem Retabled.nt {p p' : Image} {i : Nat} {R : Nat → Prop} (h : Retabled p p' i R) : p'.nt = p.nt := by rw [h.rest]

/-- A section of the new image belongs to one of the old image. -/
theorem Retabled.back {p p' : Image} {i : Nat} {R : Nat → Prop} (h : Retabled p p' i R) {j : Nat} {t : Sec}
    (ht : p'.secs[j]? = some t) : ∃ s, p.secs[j]? = some s ∧ t = { s with data := t.data } ∧ t.data.length = s.data.length := by
  have hlt : j < p'.secs.length := (List.getElem?_eq_some_iff.mp ht).1
  rw [h.count] at hlt
  obtain ⟨d, h1, h2, -⟩ := h.secs j _ (List.getElem?_eq_getElem hlt)
  rw [ht] at h1
  have := Option.some.inj h1
  refine ⟨_, List.getElem?_eq_getElem hlt, ?_, ?_⟩
  · rw [this]
  · rw [this]; exact h2

theorem Retabled.backMem {p p' : Image} {i : Nat} {R : Nat → Prop} (h : Retabled p p' i R) {t : Sec}
    (ht : t ∈ p'.secs) : ∃ s ∈ p.secs, t = { s with data := t.data } ∧ t.data.length = s.data.length := by
  obtain ⟨j, hj⟩ := List.getElem?_of_mem ht
  obtain ⟨s, h1, h2⟩ := h.back hj
  exact ⟨s, List.mem_of_getElem? h1, h2⟩

theorem Contig.same {a : Nat} : ∀ {l m : List Sec}, Contig a l → m.length = l.length →
    (∀ (j : Nat) (s t : Sec), l[j]? = some s → m[j]? = some t → t.va = s.va ∧ t.span a = s.span a) → Contig a m := by
  intro l
  induction l with
  | nil =>
    intro m _ hl _
    cases m with
    | nil => trivial
    | cons x m => simp at hl
  | cons s l ih =>
    intro m hc hl hs
    cases m with
    | nil => simp at hl
    | cons t m =>
    cases l with
    | nil =>
      cases m with
      | nil => trivial
      | cons t2 m => simp at hl
    | cons s2 l =>
    cases m with
    | nil => simp at hl
    | cons t2 m =>
      refine ⟨?_, ih hc.2 (by simpa using hl) (fun j a b h1 h2 => hs (j + 1) a b (by simpa using h1) (by simpa using h2))⟩
      have h1 := hs 0 s t rfl rfl
      have h2 := hs 1 s2 t2 rfl rfl
      rw [h2.1, h1.1, h1.2]; exact hc.1

theorem Retabled.valid {p p' : Image} {i : Nat} {R : Nat → Prop} (h : Retabled p p' i R) (hv : ValidTable p) : ValidTable p' := by
  have hnt := h.nt
  constructor
  · rw [hnt]; exact hv.sa
  · rw [hnt]; exact hv.fa
  · rw [hnt]; exact hv.le
  · intro t ht
    obtain ⟨s, hs, e, -⟩ := h.backMem ht
    have := hv.fits s hs
    rw [hnt, e]; exact ⟨this.vsize, this.rawSize, this.rawPtr, this.fin⟩
  · intro t ht
    obtain ⟨s, hs, e, -⟩ := h.backMem ht
    rw [hnt, e]; exact hv.aligned s hs
  · intro t ht
    obtain ⟨s, hs, e, -⟩ := h.backMem ht
    rw [e]; exact hv.nonempty s hs
  · rw [hnt]
    refine hv.contig.same h.count (fun j s t h1 h2 => ?_)
    obtain ⟨s', e1, e2, -⟩ := h.back h2
    rw [h1] at e1
    rw [e2, ← Option.some.inj e1]
    exact ⟨rfl, rfl⟩
  · rw [hnt, h.count]; exact hv.num
  · rw [h.count]; exact hv.count
  · intro t ht
    obtain ⟨s, hs, e, hl⟩ := h.backMem ht
    have := hv.pages s hs
    rw [hnt, hl]
    refine ⟨this.1, fun h0 => ?_⟩
    rw [e] at h0 ⊢
    exact this.2 h0

theorem Retabled.host {p p' : Image} {i : Nat} {R : Nat → Prop} {s : Sec} (h : Retabled p p' i R) (hh : Host p i s) : Host p' i s where
  valid := h.valid hh.valid
  sec := by rw [h.own]; exact hh.sec
  hdr := by rw [h.hdr]; exact hh.hdr
  pos := hh.pos
  data := by rw [h.nt]; exact hh.data
  raw := by rw [h.nt]; exact hh.raw

theorem Retabled.hostRoom {p p' : Image} {i n : Nat} {R : Nat → Prop} {s : Sec} (h : Retabled p p' i R) (hr : HostRoom p i s n) :
    HostRoom p' i s n := by
  unfold HostRoom at hr ⊢
  rw [h.count, h.nt]
  exact hr

theorem Retabled.room {p p' : Image} {i j a n : Nat} {R : Nat → Prop} (h : Retabled p p' i R) (hr : TabRoom p i j a n) : TabRoom p' i j a n := by
  obtain ⟨h0, s, h1, h2, h3, h4, h5⟩ := hr
  obtain ⟨d, g1, g2, -⟩ := h.secs j s h1
  refine ⟨h0, _, g1, ?_, h3, ?_, ?_⟩
  · rw [h.hdr]; exact h2
  · rw [g2]; exact h4
  · rw [h.nt]; show d.length ≤ s.span _; rw [g2]; exact h5

theorem TabRoom.sub {p : Image} {i j a n b m : Nat} (h : TabRoom p i j a n) (h1 : a ≤ b) (h2 : b + m ≤ a + n) : TabRoom p i j b m := by
  obtain ⟨h0, s, g1, g2, g3, g4, g5⟩ := h
  exact ⟨h0, s, g1, g2, by omega, by omega, g5⟩

/-- The bytes `x` stand at the address `a`, in the raw data of section `j`. -/
def TabAt (p : Image) (j a : Nat) (x : Bytes) : Prop := ∃ s, p.secs[j]? = some s ∧ s.va ≤ a ∧ At s.data (a - s.va) x

theorem TabAt.append {p : Image} {j a : Nat} {x y : Bytes} (h1 : TabAt p j a x) (h2 : TabAt p j (a + x.length) y) : TabAt p j a (x ++ y) := by
  obtain ⟨s, a1, a2, a3⟩ := h1
  obtain ⟨t, b1, b2, b3⟩ := h2
  rw [a1] at b1
  cases b1
  refine ⟨s, a1, a2, at_append a3 ?_⟩
  rw [show a - s.va + x.length = a + x.length - s.va by omega]
  exact b3

theorem Retabled.tab {p p' : Image} {i j a : Nat} {x : Bytes} {R : Nat → Prop} (h : Retabled p p' i R) (ha : TabAt p j a x)
    (hs : ∀ k, a ≤ k → k < a + x.length → ¬ R k) : TabAt p' j a x := by
  obtain ⟨s, a1, a2, a3⟩ := ha
  obtain ⟨d, g1, g2, g3⟩ := h.secs j s a1
  refine ⟨_, g1, a2, ?_⟩
  show At d (a - s.va) x
  rw [at_ext] at a3 ⊢
  refine ⟨by rw [g2]; exact a3.1, fun k hk => ?_⟩
  rw [g3 _ (hs _ (by omega) (by omega))]
  exact a3.2 k hk

theorem TabAt.nil {p : Image} {i j a n : Nat} (h : TabRoom p i j a n) : TabAt p j a [] := by
  obtain ⟨h0, s, g1, g2, g3, g4, g5⟩ := h
  exact ⟨s, g1, g3, at_nil (by omega)⟩

/-! ### Writing one thunk over a table -/

theorem containsRva_data (s : Sec) (d : Bytes) (a rva : Nat) : ({ s with data := d } : Sec).containsRva a rva = s.containsRva a rva := rfl

theorem map_noData_set {l : List Sec} {i : Nat} {s : Sec} (hi : l[i]? = some s) (d : Bytes) (f : Sec → Bool)
    (hf : ∀ s d, f { s with data := d } = f s) : (l.set i { s with data := d }).map f = l.map f := by
  apply List.ext_getElem?
  intro j
  rw [List.getElem?_map, List.getElem?_map]
  by_cases hj : j = i
  · subst hj
    have hlt : j < l.length := (List.getElem?_eq_some_iff.mp hi).1
    rw [List.getElem?_set_self hlt, hi]
    simp [hf]
  · rw [List.getElem?_set_ne (Ne.symm hj)]

theorem findIdx?_of_map {α : Type} {f : α → Bool} : ∀ {l m : List α}, l.map f = m.map f → l.findIdx? f = m.findIdx? f
  | [], [], _ => rfl
  | [], _ :: _, h => by simp at h
  | _ :: _, [], h => by simp at h
  | a :: l, b :: m, h => by
    simp only [List.map_cons, List.cons.injEq] at h
    rw [List.findIdx?_cons, List.findIdx?_cons, h.1, findIdx?_of_map h.2]

theorem findIdx?_covers {p : Image} (hv : ValidTable p) {j : Nat} {s : Sec} (hj : p.secs[j]? = some s) {rva : Nat}
    (hc : s.Covers p.nt.secAlign rva) : p.secs.findIdx? (fun s => s.containsRva p.nt.secAlign rva) = some j := by
  have hd := hv.contig.disjoint
  unfold VirtDisjoint at hd
  have hlt : j < p.secs.length := (List.getElem?_eq_some_iff.mp hj).1
  have he : p.secs[j] = s := (List.getElem?_eq_some_iff.mp hj).2
  rw [List.findIdx?_eq_some_iff_getElem]
  refine ⟨hlt, ?_, fun k hk => ?_⟩
  · rw [he, Sec.containsRva_iff hv.sa (hv.fits s (List.mem_of_getElem? hj))]; exact hc
  · have hkl : k < p.secs.length := by omega
    have hpw := List.pairwise_iff_getElem.mp hd k j hkl hlt hk
    rw [he] at hpw
    intro hcon
    rw [Sec.containsRva_iff hv.sa (hv.fits _ (List.getElem_mem hkl))] at hcon
    obtain ⟨a1, a2⟩ := hcon
    obtain ⟨b1, b2⟩ := hc
    omega

theorem sectionFromRva_of_idx {p : Image} {rva j : Nat} {s : Sec}
    (h : p.secs.findIdx? (fun s => s.containsRva p.nt.secAlign rva) = some j) (hj : p.secs[j]? = some s) :
    p.sectionFromRva rva = .ok s := by
  unfold Image.sectionFromRva
  have : p.secs.find? (fun s => s.containsRva p.nt.secAlign rva) = some s := by
    rw [List.findIdx?_eq_some_iff_getElem] at h
    obtain ⟨hlt, h1, h2⟩ := h
    rw [List.find?_eq_some_iff_getElem]
    have he : p.secs[j] = s := (List.getElem?_eq_some_iff.mp hj).2
    refine ⟨by rw [← he]; exact h1, j, hlt, he, fun k hk => ?_⟩
    have := h2 k hk
    simpa using this
  rw [this]

theorem savedPut_spec {p : Image} {i j a v : Nat} {s : Sec} {d : Bytes} (hv : ValidTable p) (hs : p.secs[i]? = some s)
    (hr : TabRoom p i j a p.kind.ptr) :
    ∃ p', (p.withData i s d).savedPut a v = .ok (p'.withData i s d) ∧ TabAt p' j a (leBytes p.kind.ptr v) ∧
      Retabled p p' i (fun x => a ≤ x ∧ x < a + p.kind.ptr) := by
  obtain ⟨h0, t, h1, h2, h3, h4, h5⟩ := hr
  have hp := p.kind.ptr_cases
  have hjlt : j < p.secs.length := (List.getElem?_eq_some_iff.mp h1).1
  have hfit := hv.fits t (List.mem_of_getElem? h1)
  have hfin := hfit.fin
  obtain ⟨c, e, at1, m⟩ := writeAt_mod (b := t.data) (o := a - t.va) (x := leBytes p.kind.ptr v) (by rw [leBytes_length]; omega)
  rw [leBytes_length] at m
  have hget : (p.withData i s d).secs[j]? = some t := by
    show (p.secs.set i _)[j]? = _
    rw [List.getElem?_set_ne (Ne.symm h0)]; exact h1
  have hidx : (p.withData i s d).secs.findIdx? (fun u => u.containsRva (p.withData i s d).nt.secAlign a) = some j := by
    rw [← findIdx?_covers hv h1 (rva := a) ⟨h3, by omega⟩]
    exact findIdx?_of_map (map_noData_set hs d _ (fun _ _ => rfl))
  refine ⟨{ p with secs := p.secs.set j { t with data := c } }, ?_, ?_, ?_⟩
  · unfold Image.savedPut Image.dataLenFrom
    rw [if_neg (by rintro ⟨_, h, _⟩; change a < p.hdrData.length at h; omega), sectionFromRva_of_idx hidx hget, ok_bind, if_neg (by omega), ok_bind]
    have hlen : w32 (t.viewLen .raw (p.withData i s d).nt.secAlign + t.va - a) = t.data.length + t.va - a := by
      show w32 (t.data.length + t.va - a) = _
      rw [w32, Nat.mod_eq_of_lt (by omega)]
    rw [hlen, throwIf_neg (by show ¬ _ ≤ p.kind.ptr; omega), ok_bind]
    unfold Image.mutPtrFromRva Image.secIdxFromRva
    rw [if_neg (by rintro ⟨_, h⟩; change a < p.hdrData.length at h; omega), hidx, ok_bind, hget]
    dsimp only
    rw [if_neg (by intro h; rw [h, List.length_nil] at h4; omega), if_neg (by omega), ok_bind]
    unfold Image.writeLoc
    dsimp only
    rw [hget]
    dsimp only
    rw [show (p.withData i s d).kind = p.kind from rfl, e, ok_bind]
    unfold Image.withData
    dsimp only
    rw [List.set_comm _ _ (Ne.symm h0)]
  · exact ⟨_, List.getElem?_set_self hjlt, h3, at1⟩
  · refine ⟨rfl, ?_, by simp, fun k u hu => ?_⟩
    · show (p.secs.set j _)[i]? = _
      rw [List.getElem?_set_ne h0]
    · by_cases hk : k = j
      · subst hk
        rw [h1] at hu
        cases hu
        refine ⟨c, List.getElem?_set_self hjlt, m.len, fun k hk => m.same k (fun h => hk ?_)⟩
        omega
      · exact ⟨u.data, by rw [show (p.secs.set j { t with data := c })[k]? = p.secs[k]? from List.getElem?_set_ne (Ne.symm hk)]; exact hu, rfl, fun _ _ => rfl⟩

end PE
