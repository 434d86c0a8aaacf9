/-
Helper lemmas for the TLS directory: writing the parts, reading them back.
-/
import Verif.Lemmas.Loose
import Verif.Lemmas.Shown
import Verif.Spec.Tls

namespace PE

/-- A valid section table with sections behind the headers whose raw data lie in their pages, below 2 GiB. -/
structure Solid (p : Image) : Prop where
  loose : Loose p 0
  data : ∀ s ∈ p.secs, s.data.length ≤ s.span p.nt.secAlign

theorem Solid.at {p : Image} (h : Solid p) (i : Nat) : Loose p i :=
  h.loose.change i (fun s hs => h.data s (List.mem_of_getElem? hs))

theorem Solid.valid {p : Image} (h : Solid p) : ValidTable p :=
  (h.at p.secs.length).valid (fun s hs => by simp at hs)

theorem Solid.of_all {p : Image} (h : AllHosts p) : Solid p :=
  ⟨Loose.of_hosts 0 h.valid h.host h.small, fun s hs => by
    obtain ⟨j, hj⟩ := List.getElem?_of_mem hs
    have := (h.host j s hj).data
    have := (h.host j s hj).raw
    omega⟩

/-- The image has the bytes `x` at `rva` in the raw data of a section. -/
def HasAt (p : Image) (rva : Nat) (x : Bytes) : Prop :=
  ∃ (j : Nat) (s : Sec) (o : Nat), p.secs[j]? = some s ∧ rva = s.va + o ∧ At s.data o x

/-- `q` is `p` with sections that may have grown. -/
structure Grows (p q : Image) : Prop where
  rest : q = { p with secs := q.secs }
  nt : q.nt = p.nt
  kind : q.kind = p.kind
  hdr : q.hdrData = p.hdrData
  count : q.secs.length = p.secs.length
  secs : ∀ (k : Nat) (s : Sec), p.secs[k]? = some s → ∃ s' : Sec, q.secs[k]? = some s' ∧ s'.va = s.va ∧
    s.span p.nt.secAlign ≤ s'.span p.nt.secAlign ∧ s.data.length ≤ s'.data.length

theorem Grows.refl (p : Image) : Grows p p :=
  ⟨rfl, rfl, rfl, rfl, rfl, fun _ s hs => ⟨s, hs, rfl, Nat.le_refl _, Nat.le_refl _⟩⟩

theorem Grows.trans {p q r : Image} (h : Grows p q) (g : Grows q r) : Grows p r :=
  ⟨by have e := g.rest; rw [h.rest] at e; exact e, g.nt.trans h.nt, g.kind.trans h.kind, g.hdr.trans h.hdr, g.count.trans h.count, fun k s hs => by
    obtain ⟨s1, a1, a2, a3, a4⟩ := h.secs k s hs
    obtain ⟨s2, b1, b2, b3, b4⟩ := g.secs k s1 a1
    rw [h.nt] at b3
    exact ⟨s2, b1, by rw [b2, a2], by omega, by omega⟩⟩

theorem Grows.set {p : Image} {j : Nat} {s s' : Sec} (hj : p.secs[j]? = some s) (hva : s'.va = s.va)
    (hspan : s.span p.nt.secAlign ≤ s'.span p.nt.secAlign) (hlen : s.data.length ≤ s'.data.length) :
    Grows p { p with secs := p.secs.set j s' } := by
  have hlt : j < p.secs.length := (List.getElem?_eq_some_iff.mp hj).1
  refine ⟨rfl, rfl, rfl, rfl, by simp, fun k t hk => ?_⟩
  by_cases hkj : k = j
  · subst hkj
    rw [hj] at hk
    rw [← Option.some.inj hk]
    exact ⟨s', List.getElem?_set_self hlt, hva, hspan, hlen⟩
  · exact ⟨t, by rw [List.getElem?_set_ne (Ne.symm hkj)]; exact hk, rfl, Nat.le_refl _, Nat.le_refl _⟩

/-- The bytes outside of `[lo, lo + n)` are kept. -/
def Keeps (p q : Image) (lo n : Nat) : Prop :=
  ∀ rva x, HasAt p rva x → Apart rva x.length lo n → HasAt q rva x

theorem HasAt.set {p : Image} {j : Nat} {s s' : Sec} {rva : Nat} {x : Bytes} (h : HasAt p rva x)
    (hj : p.secs[j]? = some s) (hva : s'.va = s.va)
    (hdata : ∀ o, rva = s.va + o → At s.data o x → At s'.data o x) :
    HasAt { p with secs := p.secs.set j s' } rva x := by
  have hlt : j < p.secs.length := (List.getElem?_eq_some_iff.mp hj).1
  obtain ⟨k, t, o, h1, h2, h3⟩ := h
  by_cases hkj : k = j
  · subst hkj
    rw [hj] at h1
    rw [← Option.some.inj h1] at h2 h3
    exact ⟨k, s', o, List.getElem?_set_self hlt, by rw [hva]; exact h2, hdata o h2 h3⟩
  · exact ⟨k, t, o, by show (p.secs.set j s')[k]? = _; rw [List.getElem?_set_ne (Ne.symm hkj)]; exact h1, h2, h3⟩

/-- The sections of `q` are those of `p`, not smaller, with the same bytes (zeros behind the raw data) except at addresses in `R`; the
    sizes other than those of section `i` stay in order. -/
def Still (i : Nat) (p q : Image) (R : Nat → Prop) : Prop :=
  ∀ (k : Nat) (s : Sec), p.secs[k]? = some s → ∃ s' : Sec, q.secs[k]? = some s' ∧ s.Resized s' ∧
    s.data.length ≤ s'.data.length ∧ (k ≠ i → s.Snug p → s'.Snug q) ∧ ∀ o, ¬ R (s.va + o) → s'.data.getD o 0 = s.data.getD o 0

theorem Still.refl (i : Nat) (p : Image) (R : Nat → Prop) : Still i p p R :=
  fun _ s hs => ⟨s, hs, Sec.Resized.refl s, Nat.le_refl _, fun _ => id, fun _ _ => rfl⟩

theorem Still.trans {i : Nat} {p q r : Image} {R S T : Nat → Prop} (h : Still i p q R) (g : Still i q r S) (hR : ∀ a, R a → T a) (hS : ∀ a, S a → T a) :
    Still i p r T := by
  intro k s hs
  obtain ⟨s1, a1, a2, a3, a4, a5⟩ := h k s hs
  obtain ⟨s2, b1, b2, b3, b4, b5⟩ := g k s1 a1
  refine ⟨s2, b1, a2.trans b2, by omega, fun y x => b4 y (a4 y x), fun o ho => ?_⟩
  rw [b5 o (by rw [a2.va]; exact fun x => ho (hS _ x)), a5 o fun x => ho (hR _ x)]

theorem Still.set {i : Nat} {p : Image} {R : Nat → Prop} {j : Nat} {s s' : Sec} (hj : p.secs[j]? = some s) (hva : s.Resized s')
    (hlen : s.data.length ≤ s'.data.length) (hs : j ≠ i → s.Snug p → s'.Snug p)
    (hd : ∀ o, ¬ R (s.va + o) → s'.data.getD o 0 = s.data.getD o 0) : Still i p { p with secs := p.secs.set j s' } R := by
  have hlt : j < p.secs.length := (List.getElem?_eq_some_iff.mp hj).1
  intro k t hk
  by_cases hkj : k = j
  · subst hkj
    rw [hj] at hk
    rw [← Option.some.inj hk]
    exact ⟨s', List.getElem?_set_self hlt, hva, hlen, hs, hd⟩
  · exact ⟨t, by show (p.secs.set j s')[k]? = _; rw [List.getElem?_set_ne (Ne.symm hkj)]; exact hk, Sec.Resized.refl t, Nat.le_refl _, fun _ => id,
      fun _ _ => rfl⟩

/-- What writing the bytes `x` at `rva` achieves. -/
structure Put (p q : Image) (rva : Nat) (x : Bytes) : Prop where
  solid : Solid q
  grows : Grows p q
  has : HasAt q rva x
  keeps : Keeps p q rva x.length
  still : ∀ i, Still i p q (fun a => rva ≤ a ∧ a < rva + x.length)

/-- Overwriting bytes inside of the raw data of a section. -/
theorem Solid.patch {p : Image} {j : Nat} {s : Sec} {rva : Nat} {x : Bytes} (h : Solid p) (hj : p.secs[j]? = some s)
    (hva : s.va ≤ rva) (hx : rva - s.va + x.length ≤ s.data.length) :
    Put p { p with secs := p.secs.set j { s with data := PE.patch s.data (rva - s.va) x } } rva x := by
  have hlt : j < p.secs.length := (List.getElem?_eq_some_iff.mp hj).1
  have hl := patch_length hx
  refine ⟨⟨h.loose.patch hj hx, fun t ht => ?_⟩,
    Grows.set hj rfl (Nat.le_refl _) (by show _ ≤ (PE.patch s.data (rva - s.va) x).length; omega), ?_, ?_, ?_⟩
  · rcases List.mem_or_eq_of_mem_set ht with ht | ht
    · exact h.data t ht
    · rw [ht]
      show (PE.patch s.data (rva - s.va) x).length ≤ s.span p.nt.secAlign
      rw [hl]
      exact h.data s (List.mem_of_getElem? hj)
  · exact ⟨j, _, rva - s.va, List.getElem?_set_self hlt, by show rva = s.va + (rva - s.va); omega, at_patch hx⟩
  · intro r y hy hd
    refine hy.set hj rfl (fun o ho ha => ha.patch hx ?_)
    unfold Apart at hd
    omega
  · intro i
    refine Still.set hj ⟨rfl, id⟩ (by show _ ≤ (PE.patch s.data (rva - s.va) x).length; omega) (fun _ g => ?_) fun o ho => ?_
    · refine ⟨?_, g.2⟩
      show (PE.patch s.data (rva - s.va) x).length ≤ _
      rw [hl]; exact g.1
    · exact getD_patch_outside hx (by omega)

/-- Making room at `rva`. -/
theorem Solid.expand {p : Image} {rva n : Nat} {e : ExpandType} (h : Solid p) {j : Nat} {s : Sec}
    (hj : p.secs[j]? = some s) (hc : s.Covers p.nt.secAlign rva) (hn : 0 < n)
    (hroom : (if decide (e = .raw) = true ∧ j + 1 = p.secs.length then
      s.va + ceilTo (rva - s.va + n) p.nt.secAlign < 2 ^ 32 ∧ ceilTo (rva - s.va + n) p.nt.secAlign < 2 ^ 31
      else rva + n ≤ s.va + s.data.length)) :
    ∃ s', p.expandQuiet rva n e = .ok { p with secs := p.secs.set j s' } ∧
      Solid { p with secs := p.secs.set j s' } ∧ Grows p { p with secs := p.secs.set j s' } ∧
      (∀ r x, HasAt p r x → HasAt { p with secs := p.secs.set j s' } r x) ∧
      s'.va = s.va ∧ s.span p.nt.secAlign ≤ s'.span p.nt.secAlign ∧ rva - s.va + n ≤ s'.data.length ∧
      ∀ i, Still i p { p with secs := p.secs.set j s' } (fun _ => False) := by
  have hm := List.mem_of_getElem? hj
  have hlt : j < p.secs.length := (List.getElem?_eq_some_iff.mp hj).1
  have hds := h.data s hm
  have hset : p.secs.set j s = p.secs := set_of_getElem? hj
  have hc1 := hc.1
  cases e with
  | raw =>
    have hr2 : j + 1 ≠ p.secs.length → rva + n ≤ s.va + s.data.length := fun hne => by
      rwa [if_neg (fun hh => hne hh.2)] at hroom
    obtain ⟨s', e1, e2, e3, ⟨m, e4⟩, e5, e6, e7, e8⟩ := (h.at (j + 1)).expand hj hc (n := n) (fun hlast _ => by
      rwa [if_pos ⟨by decide, hlast⟩] at hroom)
    have hsl : s.data.length ≤ s'.data.length := by rw [e4, List.length_append]; omega
    refine ⟨s', e1, ⟨e2.change 0 (fun t ht => ?_), fun t ht => ?_⟩, Grows.set hj e3 e5 hsl, ?_, e3, e5, ?_,
      fun _ => Still.set hj e8 hsl (fun _ => e7) fun o _ => by rw [e4, getD_append_zeros]⟩
    · rw [List.getElem?_set_ne (by omega)] at ht
      exact h.data t (List.mem_of_getElem? ht)
    · rcases List.mem_or_eq_of_mem_set ht with ht | ht
      · exact h.data t ht
      · rw [ht]
        exact e2.mid j s' (List.getElem?_set_self hlt) (Or.inl (by omega))
    · intro r x hx
      refine hx.set hj e3 (fun o _ ha => ?_)
      rw [e4]
      exact ha.more _
    · by_cases hlast : j + 1 = p.secs.length
      · exact e6 hlast hn
      · have := hr2 hlast
        omega
  | virt =>
    rw [if_neg (by simp)] at hroom
    have hq := (h.at 0).expandVirt hj hc (n := n) (by omega)
    refine ⟨s, by rw [hq, hset], by rw [hset]; exact h, by rw [hset]; exact Grows.refl p,
      by rw [hset]; exact fun _ _ hx => hx, rfl, Nat.le_refl _, by omega, by rw [hset]; exact fun i => Still.refl i p _⟩

theorem RoomAt.grows {p q : Image} {g : Bool} {rva n : Nat} (h : RoomAt p g rva n) (hg : Grows p q) :
    RoomAt q g rva n := by
  obtain ⟨j, s, h1, ⟨h2, h2'⟩, h3⟩ := h
  obtain ⟨s', g1, g2, g3, g4⟩ := hg.secs j s h1
  refine ⟨j, s', g1, ⟨by omega, by rw [hg.nt]; omega⟩, ?_⟩
  rw [hg.nt, hg.count, g2]
  split
  · next hc => rwa [if_pos hc] at h3
  · next hc => rw [if_neg hc] at h3; omega

/-- pe_tls.cpp:289-319: the raw data get written. -/
theorem tlsPutData_ok {p : Image} {t : TlsInfo} {e : ExpandType} (h : Solid p) (hs : t.Sound)
    (hroom : t.start ≠ 0 → RoomAt p (decide (e = .raw)) t.start t.raw.length) :
    ∃ q, p.tlsPutData t e = .ok q ∧ Solid q ∧ Grows p q ∧ (t.raw ≠ [] → HasAt q t.start t.raw) ∧
      Keeps p q t.start t.raw.length ∧ ∀ i, Still i p q (fun a => t.start ≤ a ∧ a < t.start + t.raw.length) := by
  have hst := hs.stop
  unfold Image.tlsPutData
  by_cases hc : t.start ≠ 0 ∧ t.start ≠ t.stop
  · rw [if_pos hc]
    have hsz : t.stop - t.start = t.raw.length := by omega
    have hpos : 0 < t.raw.length := by omega
    rw [hsz]
    obtain ⟨j, s, h1, h2, h3⟩ := hroom hc.1
    obtain ⟨s', e1, e2, e3, e4, e5, e6, e7, e8⟩ := h.expand h1 h2 hpos h3
    have hlt : j < p.secs.length := (List.getElem?_eq_some_iff.mp h1).1
    have hj' : ({ p with secs := p.secs.set j s' } : Image).secs[j]? = some s' := List.getElem?_set_self hlt
    rw [e1, ok_bind]
    generalize hq1 : ({ p with secs := p.secs.set j s' } : Image) = q1 at *
    have hnt : q1.nt = p.nt := e3.nt
    have hc' : s'.Covers q1.nt.secAlign t.start := by
      obtain ⟨a, b⟩ := h2
      exact ⟨by omega, by rw [hnt]; omega⟩
    have hroom1 : q1.tlsRoom t.start t.raw.length = .ok t.raw.length := by
      unfold Image.tlsRoom
      rw [(e2.at 0).lenRaw hj' hc', ok_bind, if_neg (by have := hc'.1; omega)]
    rw [hroom1, ok_bind, if_neg (by omega)]
    have hw := (e2.at 0).write hj' hc' (x := t.raw) (by rw [e5]; exact e7) hpos
    have hrd : readN (t.raw ++ [0]) 0 t.raw.length = .ok t.raw := at_readN (at_self (t.raw ++ [0])).append.1
    rw [hw.1, ok_bind, hrd, ok_bind, hw.2]
    have hput := e2.patch hj' hc'.1 (x := t.raw) (by rw [e5]; exact e7)
    exact ⟨_, rfl, hput.solid, e3.trans hput.grows, fun _ => hput.has, fun r x hx hd => hput.keeps r x (e4 r x hx) hd,
      fun i => (e8 i).trans (hput.still i) (fun _ g => g.elim) fun _ g => g⟩
  · rw [if_neg hc]
    refine ⟨p, rfl, h, Grows.refl p, fun hne => ?_, fun _ _ hx _ => hx, fun i => Still.refl i p _⟩
    exfalso
    apply hc
    have h0 : t.start ≠ 0 := fun h0 => hne (hs.noData h0).1
    have : 0 < t.raw.length := List.length_pos_iff.mpr hne
    exact ⟨h0, by omega⟩

/-- The table of callbacks. -/
def TlsInfo.table (t : TlsInfo) (p : Image) : Bytes :=
  encVals p.kind.ptr (t.callbacks.map (p.nt.imageBase + ·) ++ [0])

theorem TlsInfo.table_length (t : TlsInfo) (p : Image) :
    (t.table p).length = p.kind.ptr * (t.callbacks.length + 1) := by
  unfold TlsInfo.table
  rw [encVals_length]
  simp

theorem tlsVas_ok {p : Image} {rs : List Nat} (h : ∀ r ∈ rs, p.nt.imageBase + r < 256 ^ p.kind.ptr) :
    p.tlsVas rs = .ok (rs.map (p.nt.imageBase + ·)) := by
  induction rs with
  | nil => rfl
  | cons r rs ih =>
    rw [Image.tlsVas, rvaToVa_ok (h r (by simp)), ok_bind, ih (fun x hx => h x (by simp [hx])), ok_bind, List.map_cons]

/-- pe_tls.cpp:323-357: the table of callbacks gets written. -/
theorem tlsPutCallbacks_ok {p : Image} {t : TlsInfo} (h : Solid p) (hm : t.Mapped p)
    (hlen : p.kind.ptr * (t.callbacks.length + 1) < 2 ^ 32)
    (hroom : t.callbacksRva ≠ 0 → RoomAt p true t.callbacksRva (p.kind.ptr * (t.callbacks.length + 1))) :
    ∃ q, p.tlsPutCallbacks t = .ok q ∧ Solid q ∧ Grows p q ∧
      (t.callbacksRva ≠ 0 → HasAt q t.callbacksRva (t.table p)) ∧ Keeps p q t.callbacksRva (t.tableLen p.kind) ∧
      ∀ i, Still i p q (fun a => t.callbacksRva ≤ a ∧ a < t.callbacksRva + t.tableLen p.kind) := by
  unfold Image.tlsPutCallbacks
  by_cases hc : t.callbacksRva ≠ 0
  · rw [if_pos hc]
    have hpc := p.kind.ptr_cases
    have hneed : w32 ((t.callbacks.length + 1) * p.kind.ptr) = p.kind.ptr * (t.callbacks.length + 1) := by
      rw [Nat.mul_comm, w32, Nat.mod_eq_of_lt hlen]
    rw [hneed]
    dsimp only
    have hge : p.kind.ptr ≤ p.kind.ptr * (t.callbacks.length + 1) := Nat.le_mul_of_pos_right _ (by omega)
    have htl : t.tableLen p.kind = (t.table p).length := by
      unfold TlsInfo.tableLen
      rw [if_neg hc, TlsInfo.table_length]
    rw [htl]
    have hbl := TlsInfo.table_length t p
    generalize hN : p.kind.ptr * (t.callbacks.length + 1) = N at *
    obtain ⟨j, s, h1, h2, h3⟩ := hroom hc
    obtain ⟨s', e1, e2, e3, e4, e5, e6, e7, e8⟩ := h.expand (e := .raw) h1 h2 (n := N) (by omega) (by simpa using h3)
    have hlt : j < p.secs.length := (List.getElem?_eq_some_iff.mp h1).1
    have hj' : ({ p with secs := p.secs.set j s' } : Image).secs[j]? = some s' := List.getElem?_set_self hlt
    rw [e1, ok_bind]
    have hkind : ({ p with secs := p.secs.set j s' } : Image).kind = p.kind := rfl
    have hvas : ({ p with secs := p.secs.set j s' } : Image).tlsVas t.callbacks =
        .ok (t.callbacks.map (p.nt.imageBase + ·)) := tlsVas_ok (fun r hr => (hm.callbacks r hr).2.2)
    generalize hq1 : ({ p with secs := p.secs.set j s' } : Image) = q1 at *
    have hnt : q1.nt = p.nt := e3.nt
    have hc' : s'.Covers q1.nt.secAlign t.callbacksRva := by
      obtain ⟨a, b⟩ := h2
      exact ⟨by omega, by rw [hnt]; omega⟩
    have hc1 := hc'.1
    have hds := e2.data s' (List.mem_of_getElem? hj')
    have hsub : sub64 N p.kind.ptr = N - p.kind.ptr := by unfold sub64; omega
    rw [(e2.at 0).lenRaw hj' hc', ok_bind, hkind, hsub, throwIf_neg (by omega), ok_bind,
      (e2.at 0).lenVirt hj' hc', ok_bind, throwIf_neg (by omega), ok_bind, hvas, ok_bind]
    have htake : List.take N (List.flatMap (leBytes p.kind.ptr) (t.callbacks.map (p.nt.imageBase + ·) ++ [0])) =
        t.table p := by
      rw [List.take_of_length_le]
      · rfl
      · show (t.table p).length ≤ N
        omega
    rw [htake]
    have hw := (e2.at 0).write hj' hc' (x := t.table p) (by omega) (by omega)
    rw [hw.1, ok_bind, hw.2]
    have hput := e2.patch hj' hc1 (x := t.table p) (by omega)
    exact ⟨_, rfl, hput.solid, e3.trans hput.grows, fun _ => hput.has, fun r x hx hd => hput.keeps r x (e4 r x hx) hd,
      fun i => (e8 i).trans (hput.still i) (fun _ g => g.elim) fun _ g => g⟩
  · rw [if_neg hc]
    exact ⟨p, rfl, h, Grows.refl p, fun h0 => absurd h0 hc, fun _ _ hx _ => hx, fun i => Still.refl i p _⟩

/-- What the accessors of `r` show: the raw data of all sections of `q`, each with all its pages. -/
def Shows (r q : Image) : Prop :=
  ∀ (k : Nat) (u : Sec), q.secs[k]? = some u → ∃ (u' : Sec) (m : Bytes), Window r u.va m u' ∧ At m 0 u.data ∧
    u.span q.nt.secAlign ≤ m.length

/-- The end of the rebuilder. -/
theorem Solid.finish {q : Image} {i : Nat} {s : Sec} (h : Solid q) (hi : q.secs[i]? = some s) (hne : s.data ≠ [])
    (hdirs : q.nt.DirsOk) {id : Nat} (hid : id < q.nt.numRva) (dir : Nat × Nat) (strip : Bool) :
    ∃ r, q.finishDir i s s.data strip true id dir = .ok (r, dir) ∧ ValidTable r ∧ r.kind = q.kind ∧
      r.hdrData = q.hdrData ∧ r.secs.length = q.secs.length ∧ r.nt = { q.nt with dirs := q.nt.dirs.set id dir } ∧
      (∀ j, j ≠ i → r.secs[j]? = q.secs[j]?) ∧
      r.nt.getDirRva id = .ok dir.1 ∧ r.hasDir id = .ok (decide (dir.1 ≠ 0)) ∧ Shows r q ∧
      r = { q with secs := r.secs, nt := r.nt } ∧
      ∀ (k : Nat) (u : Sec), q.secs[k]? = some u → (k ≠ i → u.Snug q) → ∃ t, Host r k t ∧ u.Resized t ∧
        (∃ z, t.memory r.nt.secAlign = u.data ++ zeros z) ∧ u.span q.nt.secAlign ≤ (t.memory r.nt.secAlign).length ∧
        (k ≠ i ∨ strip = false ∨ i + 1 = q.secs.length → t.data = u.data) := by
  have hm := List.mem_of_getElem? hi
  have hlt : i < q.secs.length := (List.getElem?_eq_some_iff.mp hi).1
  have hL := h.at i
  obtain ⟨r1, r2, r3, r4, r5, r6, r7, r8, r9⟩ := hL.recalc strip hi hne
  obtain ⟨n1, n2, n3, n4, n5⟩ := hL.need hi
  have n3' := n3 (h.data s hm)
  have hsm := h.loose.small s hm
  have hsn := hL.hosted_snug strip hi hne
  have hdt : strip = false ∨ i + 1 = q.secs.length → (hosted q i s s.data strip).data = s.data := by
    intro g
    unfold hosted
    dsimp only
    rw [if_neg (by rintro ⟨g1, g2⟩; rcases g with g | g; · rw [g1] at g; cases g
                   · exact g2 g)]
    rfl
  have hrs := hosted_resized q i s s.data strip
  generalize hosted q i s s.data strip = t at *
  have hvsz := ceilTo_ge (x := t.vsize) h.loose.sa.pos
  have hsp := r5
  unfold Sec.span at hsp
  rw [if_neg r4] at hsp
  have hmono := ceilTo_mono (a := q.nt.secAlign) h.loose.sa.pos r6
  have hq : Loose { q with secs := q.secs.set i t } i := by
    refine hL.set hi r2 ⟨by omega, r8, by rw [r3]; exact (h.loose.fits s hm).rawPtr, by rw [r5, r2]; exact n5⟩
      (fun hz => r4 hz.1) (fun _ => by rw [r5]; exact n3') ⟨by rw [r2]; omega, by omega, by rw [r5, n3']; exact hsm.2.2⟩
      (fun h0 => absurd h0 r4) (fun _ => by rw [r5]; omega)
  have hval : ValidTable { q with secs := q.secs.set i t } := hq.valid (fun u hu h0 => by
    rw [List.getElem?_set_self hlt] at hu
    rw [← Option.some.inj hu] at h0
    exact absurd h0 r4)
  have hdir := getDir_stored (h := { q.nt with dirs := q.nt.dirs.set id dir }) (DirsOk.set hdirs _ _) hid (d := dir)
    (List.getElem?_set_self (by have := hdirs.slots; have := hdirs.count; omega))
  refine ⟨{ q with secs := q.secs.set i t, nt := { q.nt with dirs := q.nt.dirs.set id dir } }, ?_,
    hval.congr rfl rfl rfl rfl, rfl, rfl, by simp, rfl, fun j hj => by simp [List.getElem?_set_ne (Ne.symm hj)],
    hdir.1, hdir.2.2, ?_, rfl, ?_⟩
  · have hbind := setDir_both hdirs hid dir.1 dir.2
    have h1 := setDir_rva hdirs hid dir.1
    rw [h1, ok_bind] at hbind
    unfold Image.finishDir
    rw [show ({ q with secs := q.secs.set i { s with data := s.data } } : Image) = q by
      rw [show ({ s with data := s.data } : Sec) = s from rfl, set_of_getElem? hi], r1, ok_bind]
    simp only [if_true]
    rw [h1, ok_bind, hbind, ok_bind]
  · intro k u hk
    have hspan : ∀ v : Sec, v.data.length ≤ v.span q.nt.secAlign →
        (v.memory q.nt.secAlign).length = v.span q.nt.secAlign := by
      intro v hv
      unfold Sec.memory
      simp
      omega
    by_cases hki : k = i
    · subst hki
      rw [hi] at hk
      rw [← Option.some.inj hk]
      have hw := window_of_valid (i := k) hval (s := t) (List.getElem?_set_self hlt)
        (by rw [r2]; exact (h.loose.hdr s hm).1) (by show _ ≤ t.span q.nt.secAlign; omega)
      refine ⟨t, t.memory q.nt.secAlign, by rw [← r2]; exact hw.congr rfl rfl rfl, ?_, ?_⟩
      · rw [r9]
        exact (at_self s.data).more _
      · rw [hspan t (by omega), r5]
        omega
    · have hget : ({ q with secs := q.secs.set i t } : Image).secs[k]? = some u := by
        show (q.secs.set i t)[k]? = _
        rw [List.getElem?_set_ne (Ne.symm hki)]; exact hk
      have hmu := List.mem_of_getElem? hk
      have hw := window_of_valid (i := k) hval (s := u) hget (h.loose.hdr u hmu).1 (h.data u hmu)
      refine ⟨u, u.memory q.nt.secAlign, hw.congr rfl rfl rfl, (at_self u.data).more _, ?_⟩
      rw [hspan u (h.data u hmu)]
      exact Nat.le_refl _
  · intro k u hk hu
    by_cases hki : k = i
    · subst hki
      rw [hi] at hk
      rw [← Option.some.inj hk]
      refine ⟨t, ⟨hval.congr rfl rfl rfl rfl, List.getElem?_set_self hlt, by rw [r2]; exact (h.loose.hdr s hm).1,
        by rw [r2]; exact (h.loose.hdr s hm).2, hsn.1, hsn.2⟩, ⟨hrs, fun _ => r4⟩, ⟨_, r9⟩, ?_, fun g => hdt (g.resolve_left fun x => x rfl)⟩
      show _ ≤ (t.memory q.nt.secAlign).length
      rw [r9, List.length_append, zeros_length]
      omega
    · have hmu := List.mem_of_getElem? hk
      refine ⟨u, ⟨hval.congr rfl rfl rfl rfl, ?_, (h.loose.hdr u hmu).1, (h.loose.hdr u hmu).2, (hu hki).1, (hu hki).2⟩, Sec.Resized.refl u, ⟨_, rfl⟩, ?_,
        fun _ => rfl⟩
      · show (q.secs.set i t)[k]? = _
        rw [List.getElem?_set_ne (Ne.symm hki)]; exact hk
      · show _ ≤ (u.memory q.nt.secAlign).length
        unfold Sec.memory
        simp
        omega

/-- Reading through the accessors what stands in the raw data. -/
theorem Shows.has {r q : Image} (h : Shows r q) {rva : Nat} {x : Bytes} (hx : HasAt q rva x) (hne : 0 < x.length) :
    ∃ (u : Sec) (m : Bytes) (o : Nat), Window r u.va m u ∧ rva = u.va + o ∧ o < m.length ∧ At m o x := by
  obtain ⟨k, s, o, h1, h2, h3⟩ := hx
  obtain ⟨u, m, w1, w2, w3⟩ := h k s h1
  have hat : At m o x := by have := w2.trans h3; rwa [Nat.zero_add] at this
  have hva := w1.sva
  exact ⟨u, m, o, by rw [hva]; exact w1, by rw [hva]; exact h2, by have := hat.le; omega, hat⟩

theorem Shows.read {r q : Image} (h : Shows r q) {rva : Nat} {x : Bytes} (hx : HasAt q rva x) (hne : 0 < x.length)
    (hdrs : Bool) : r.readT x.length rva .virt hdrs = .ok x := by
  obtain ⟨u, m, o, h1, h2, h3, h4⟩ := h.has hx hne
  rw [h2, h1.readT hdrs o x.length h3 h4.le, h4.2]

theorem HasAt.part {q : Image} {rva : Nat} {x y : Bytes} {o : Nat} (h : HasAt q rva x) (hy : At x o y) :
    HasAt q (rva + o) y := by
  obtain ⟨k, s, o', h1, h2, h3⟩ := h
  exact ⟨k, s, o' + o, h1, by omega, h3.trans hy⟩

theorem Shows.covers {r q : Image} (h : Shows r q) {k : Nat} {s : Sec} (hk : q.secs[k]? = some s) {rva : Nat}
    (hc : s.Covers q.nt.secAlign rva) (hdrs : Bool) : ∃ n, r.dataLenFrom rva rva .virt hdrs = .ok n := by
  obtain ⟨u, m, w1, w2, w3⟩ := h k s hk
  obtain ⟨c1, c2⟩ := hc
  have := w1.len hdrs (rva - s.va) (by omega)
  rw [show s.va + (rva - s.va) = rva by omega] at this
  exact ⟨_, this⟩

/-- The bytes `x` stand at `rva` in a section of `r` (as mapped). -/
def Seen (r : Image) (rva : Nat) (x : Bytes) : Prop :=
  ∃ (k : Nat) (t : Sec) (o : Nat), Host r k t ∧ rva = t.va + o ∧ o < (t.memory r.nt.secAlign).length ∧ At (t.memory r.nt.secAlign) o x

theorem Seen.window {r : Image} {rva : Nat} {x : Bytes} (h : Seen r rva x) :
    ∃ (u : Sec) (m : Bytes) (o : Nat), Window r u.va m u ∧ rva = u.va + o ∧ o < m.length ∧ At m o x := by
  obtain ⟨k, t, o, h1, h2, h3, h4⟩ := h
  exact ⟨t, _, o, h1.window, h2, h3, h4⟩

theorem Seen.read {r : Image} {rva : Nat} {x : Bytes} (h : Seen r rva x) (hdrs : Bool) : r.readT x.length rva .virt hdrs = .ok x := by
  obtain ⟨u, m, o, h1, h2, h3, h4⟩ := h.window
  rw [h2, h1.readT hdrs o x.length h3 h4.le, h4.2]

theorem Seen.part {r : Image} {rva o : Nat} {x y : Bytes} (h : Seen r rva x) (hy : At x o y) (hl : 0 < y.length) : Seen r (rva + o) y := by
  obtain ⟨k, t, o', h1, h2, h3, h4⟩ := h
  have := h4.trans hy
  have := this.le
  exact ⟨k, t, o' + o, h1, by omega, by omega, h4.trans hy⟩

/-- The fields of the written structure. -/
theorem tlsFields_rd (k : Kind) {a b c d e f : Nat} (ha : a < 256 ^ k.ptr) (hb : b < 256 ^ k.ptr) (hc : c < 256 ^ k.ptr)
    (hd : d < 256 ^ k.ptr) (he : e < 2 ^ 32) (hf : f < 2 ^ 32) :
    let S := encFields [(k.ptr, a), (k.ptr, b), (k.ptr, c), (k.ptr, d), (4, e), (4, f)]
    S.length = k.sizeofTls ∧ rd k.ptr S 0 = a ∧ rd k.ptr S k.ptr = b ∧ rd k.ptr S (2 * k.ptr) = c ∧
    rd k.ptr S (3 * k.ptr) = d ∧ rd 4 S (4 * k.ptr) = e ∧ rd 4 S (4 * k.ptr + 4) = f := by
  intro S
  have hall : ∀ x ∈ [(k.ptr, a), (k.ptr, b), (k.ptr, c), (k.ptr, d), (4, e), (4, f)], x.2 < 256 ^ x.1 := by
    intro x hx
    simp only [List.mem_cons, List.not_mem_nil, or_false] at hx
    rcases hx with h | h | h | h | h | h <;> rw [h] <;> assumption
  have key : ∀ {i w v off : Nat}, [(k.ptr, a), (k.ptr, b), (k.ptr, c), (k.ptr, d), (4, e), (4, f)][i]? = some (w, v) →
      (([(k.ptr, a), (k.ptr, b), (k.ptr, c), (k.ptr, d), (4, e), (4, f)].take i).map Prod.fst).sum = off →
      rd w S off = v := by
    intro i w v off h1 h2
    have := rd_enc_nth (off := off) [] hall h1 h2
    rwa [List.append_nil] at this
  refine ⟨?_, key (i := 0) rfl rfl, key (i := 1) rfl (by simp), key (i := 2) rfl (by simp; omega),
    key (i := 3) rfl (by simp; omega), key (i := 4) rfl (by simp; omega), key (i := 5) rfl (by simp; omega)⟩
  rw [encFields_length]
  cases k <;> rfl

theorem vaToRva_free {p : Image} {rva : Nat} (h : rva < 2 ^ 32) (hb : p.nt.imageBase + 2 ^ 32 ≤ 2 ^ 64) :
    p.vaToRva (p.nt.imageBase + rva) false = .ok rva := by
  have e : w32 (sub64 (p.nt.imageBase + rva) p.nt.imageBase) = rva := by
    unfold w32 sub64; omega
  unfold Image.vaToRva
  split
  · unfold Image.vaToRva32
    rw [if_neg (by simp), e]
  · unfold Image.vaToRva64
    rw [if_neg (by simp), e]

/-- Reading the table of callbacks. -/
theorem tlsLoop_eq {q : Image} {table : Nat} (rs : List Nat) (fuel cur : Nat) (hf : rs.length < fuel)
    (hsmall : cur + q.kind.ptr * (rs.length + 1) ≤ 2 ^ 32)
    (h : ∀ (j r : Nat), rs[j]? = some r → ∃ a va,
      q.vaToRva ((table + (cur + q.kind.ptr * j)) % 256 ^ q.kind.ptr) = .ok a ∧
      q.readInt q.kind.ptr a .virt true = .ok va ∧ va ≠ 0 ∧ q.vaToRva va false = .ok r)
    (hz : ∃ a, q.vaToRva ((table + (cur + q.kind.ptr * rs.length)) % 256 ^ q.kind.ptr) = .ok a ∧
      q.readInt q.kind.ptr a .virt true = .ok 0) :
    q.tlsLoop table fuel cur = .ok rs := by
  induction rs generalizing fuel cur with
  | nil =>
    obtain ⟨f, rfl⟩ : ∃ f, fuel = f + 1 := ⟨fuel - 1, by simp at hf; omega⟩
    obtain ⟨a, h1, h2⟩ := hz
    rw [List.length_nil, Nat.mul_zero, Nat.add_zero] at h1
    rw [Image.tlsLoop, h1, ok_bind, h2, ok_bind, if_pos rfl]
  | cons r rs ih =>
    obtain ⟨f, rfl⟩ : ∃ f, fuel = f + 1 := ⟨fuel - 1, by simp at hf; omega⟩
    rw [List.length_cons] at hf hz hsmall
    obtain ⟨a, va, h1, h2, h3, h4⟩ := h 0 r (by simp)
    rw [Nat.mul_zero, Nat.add_zero] at h1
    have hm1 : q.kind.ptr * (rs.length + 1 + 1) = q.kind.ptr * (rs.length + 1) + q.kind.ptr := by rw [Nat.mul_succ]
    have hm2 : q.kind.ptr * (rs.length + 1) = q.kind.ptr * rs.length + q.kind.ptr := by rw [Nat.mul_succ]
    have hpp := q.kind.ptr_cases
    rw [Image.tlsLoop, h1, ok_bind, h2, ok_bind, if_neg h3, h4, ok_bind, w32, Nat.mod_eq_of_lt (by omega),
      ih f (cur + q.kind.ptr) (by omega) (by omega) ?_ ?_, ok_bind]
    · intro j x hx
      have := h (j + 1) x (by simpa using hx)
      rwa [show cur + q.kind.ptr * (j + 1) = cur + q.kind.ptr + q.kind.ptr * j by rw [Nat.mul_succ]; omega] at this
    · rwa [show cur + q.kind.ptr + q.kind.ptr * rs.length = cur + q.kind.ptr * (rs.length + 1) by omega]

end PE
