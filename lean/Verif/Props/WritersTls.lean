/-
C94: memory safety of the function that writes the TLS directory.
-/
import Verif.Props.WritersImports
import Verif.Model.Tls

namespace PE

/-- There are `x` bytes of raw data behind the address, if it is one. -/
def RawRoom (p : Image) (rva x : Nat) : Prop :=
  (rva < p.hdrData.length → rva + x ≤ p.hdrData.length) ∧
    (p.hdrData.length ≤ rva → ∀ (j : Nat) (s : Sec), p.secs[j]? = some s → s.containsRva p.nt.secAlign rva = true →
      (∀ (k : Nat) (t : Sec), k < j → p.secs[k]? = some t → t.containsRva p.nt.secAlign rva = false) → rva - s.va + x ≤ s.data.length)

theorem containsRva_va {s : Sec} {a r : Nat} (h : s.containsRva a r = true) : s.va ≤ r := by
  unfold Sec.containsRva at h
  exact of_decide_eq_true ((Bool.and_eq_true _ _).mp h).1

theorem idx_first {p : Image} {rva j : Nat} (h : p.secIdxFromRva rva = .ok j) :
    ∃ s, p.secs[j]? = some s ∧ s.containsRva p.nt.secAlign rva = true ∧
      ∀ (k : Nat) (t : Sec), k < j → p.secs[k]? = some t → t.containsRva p.nt.secAlign rva = false := by
  unfold Image.secIdxFromRva at h
  split at h
  · next i hi =>
    cases h
    rw [List.findIdx?_eq_some_iff_getElem] at hi
    obtain ⟨hl, h1, h2⟩ := hi
    refine ⟨_, List.getElem?_eq_getElem hl, h1, fun k t hk ht => ?_⟩
    obtain ⟨hk', e⟩ := List.getElem?_eq_some_iff.mp ht
    have := h2 k hk
    rw [e] at this
    simpa using this
  · cases h

theorem mutPtr_true {p : Image} {rva x : Nat} (h : RawRoom p rva x) (h0 : 0 < x) :
    SafeTo (p.mutPtrFromRva rva true) fun l => ∀ b : Bytes, b.length = x → ∃ q, p.writeLoc l b = .ok q := by
  unfold Image.mutPtrFromRva
  by_cases hh : rva < p.hdrData.length
  · have := h.1 hh
    rw [if_pos ⟨rfl, hh⟩]
    refine SafeTo.ok fun b hb => ?_
    obtain ⟨d, e, -⟩ := writeAt_fit (d := p.hdrData) (o := rva) (x := b) (by omega)
    exact ⟨_, by unfold Image.writeLoc; dsimp only; rw [e]; rfl⟩
  · rw [if_neg (by rintro ⟨_, h⟩; exact hh h)]
    cases hi : p.secIdxFromRva rva with
    | error e =>
      unfold Image.secIdxFromRva at hi
      split at hi
      · cases hi
      · cases hi; exact SafeTo.throwE _
    | ok j =>
      obtain ⟨s, hj, hc, hf⟩ := idx_first hi
      have hr := h.2 (by omega) j s hj hc hf
      rw [ok_bind, hj]
      dsimp only
      rw [if_neg (by intro e; rw [e, List.length_nil] at hr; omega), if_neg (by omega)]
      refine SafeTo.ok fun b hb => ?_
      obtain ⟨d, e, -⟩ := writeAt_fit (d := s.data) (o := rva - s.va) (x := b) (by omega)
      refine ⟨{ p with secs := p.secs.set j { s with data := d } }, ?_⟩
      unfold Image.writeLoc
      dsimp only
      rw [hj]
      dsimp only
      rw [e]
      rfl

/-- Only the last section may have changed its sizes, the others may have got more raw data. -/
structure TailOnly (p q : Image) : Prop where
  kind : q.kind = p.kind
  dirs : q.nt.dirs.length = p.nt.dirs.length
  sa : q.nt.secAlign = p.nt.secAlign
  hdr : q.hdrData.length = p.hdrData.length
  len : q.secs.length = p.secs.length
  va : ∀ (j : Nat) (t : Sec), q.secs[j]? = some t → ∃ s, p.secs[j]? = some s ∧ t.va = s.va ∧
    (j + 1 ≠ p.secs.length → t.vsize = s.vsize ∧ t.rawSize = s.rawSize ∧ s.data.length ≤ t.data.length)

theorem TailOnly.refl (p : Image) : TailOnly p p := ⟨rfl, rfl, rfl, rfl, rfl, fun _ t h => ⟨t, h, rfl, fun _ => ⟨rfl, rfl, Nat.le_refl _⟩⟩⟩

theorem TailOnly.trans {p q r : Image} (h : TailOnly p q) (g : TailOnly q r) : TailOnly p r := by
  refine ⟨g.kind.trans h.kind, g.dirs.trans h.dirs, g.sa.trans h.sa, g.hdr.trans h.hdr, g.len.trans h.len, fun j t ht => ?_⟩
  obtain ⟨s, hs, e1, k1⟩ := g.va j t ht
  obtain ⟨s', hs', e2, k2⟩ := h.va j s hs
  refine ⟨s', hs', e1.trans e2, fun hj => ?_⟩
  obtain ⟨a1, a2, a3⟩ := k1 (by rw [h.len]; exact hj)
  obtain ⟨b1, b2, b3⟩ := k2 hj
  exact ⟨a1.trans b1, a2.trans b2, Nat.le_trans b3 a3⟩

theorem OnlyBytes.tail {p q : Image} (h : OnlyBytes p q) : TailOnly p q := by
  obtain ⟨ss, hh, rfl, h1, h2⟩ := h
  refine ⟨rfl, rfl, rfl, h1, by have := congrArg List.length h2; simpa using this, fun j t ht => ?_⟩
  have : (ss.map Sec.shape)[j]? = some t.shape := by rw [List.getElem?_map]; show Option.map _ (ss[j]?) = _; rw [ht]; rfl
  rw [h2, List.getElem?_map] at this
  obtain ⟨s, hs, e⟩ := Option.map_eq_some_iff.mp this
  have e1 : ({ s with data := [] } : Sec) = { t with data := [] } := congrArg Prod.fst e
  have e2 : s.data.length = t.data.length := congrArg Prod.snd e
  refine ⟨s, hs, ?_, fun _ => ⟨?_, ?_, by omega⟩⟩
  · have := congrArg Sec.va e1; exact this.symm
  · have := congrArg Sec.vsize e1; exact this.symm
  · have := congrArg Sec.rawSize e1; exact this.symm

/-- A change of the last section. -/
theorem TailOnly.set {p : Image} {i : Nat} {s t : Sec} (hs : p.secs[i]? = some s) (hv : t.va = s.va)
    (h : i + 1 ≠ p.secs.length → t.vsize = s.vsize ∧ t.rawSize = s.rawSize ∧ s.data.length ≤ t.data.length) :
    TailOnly p { p with secs := p.secs.set i t } := by
  refine ⟨rfl, rfl, rfl, rfl, List.length_set .., fun j u hu => ?_⟩
  change (p.secs.set i t)[j]? = some u at hu
  by_cases hj : i = j
  · subst hj
    rw [List.getElem?_set_self (List.getElem?_eq_some_iff.mp hs).1] at hu
    cases hu
    exact ⟨s, hs, hv, h⟩
  · rw [List.getElem?_set_ne hj] at hu
    exact ⟨u, hu, rfl, fun _ => ⟨rfl, rfl, Nat.le_refl _⟩⟩

theorem updateImageSize_tail (p : Image) : TailOnly p p.updateImageSize ∧ p.updateImageSize.secs = p.secs := by
  unfold Image.updateImageSize
  split
  · exact ⟨⟨rfl, rfl, rfl, rfl, rfl, (TailOnly.refl p).va⟩, rfl⟩
  · exact ⟨⟨rfl, rfl, rfl, rfl, rfl, (TailOnly.refl p).va⟩, rfl⟩

theorem setVirtualSize_tail {p : Image} {i v : Nat} : SafeTo (p.setSectionVirtualSize i v) fun q => TailOnly p q ∧
    ∀ s, p.secs[i]? = some s → ∃ t, q.secs[i]? = some t ∧ t.data = s.data := by
  unfold Image.setSectionVirtualSize
  split
  · exact SafeTo.throwE _
  · next s hs =>
    have hil := (List.getElem?_eq_some_iff.mp hs).1
    split
    · exact SafeTo.throwE _
    · next hl =>
      have key : ∀ t : Sec, t.va = s.va → t.data = s.data → TailOnly p ({ p with secs := p.secs.set i t } : Image).updateImageSize ∧
          ∀ s, p.secs[i]? = some s → ∃ t', ({ p with secs := p.secs.set i t } : Image).updateImageSize.secs[i]? = some t' ∧ t'.data = s.data := by
        intro t h1 h2
        obtain ⟨u1, u2⟩ := updateImageSize_tail { p with secs := p.secs.set i t }
        refine ⟨(TailOnly.set hs h1 fun h => absurd h hl).trans u1, fun s' hs' => ⟨t, ?_, ?_⟩⟩
        · rw [u2]; exact List.getElem?_set_self hil
        · rw [hs] at hs'; cases hs'; exact h2
      split
      · split
        · exact SafeTo.throwE _
        · exact SafeTo.ok (key _ rfl rfl)
      · exact SafeTo.ok (key _ rfl rfl)

/-- The sizes of the last section are computed anew; the data stay. -/
theorem recalculate_tail {p : Image} {i : Nat} {s : Sec} (hs : p.secs[i]? = some s) (hl : i + 1 = p.secs.length) :
    SafeTo (p.recalculateSectionSizes i false) fun q => TailOnly p q ∧ ∃ t, q.secs[i]? = some t ∧ t.data = s.data := by
  unfold Image.recalculateSectionSizes
  rw [hs]
  dsimp only
  have hil := (List.getElem?_eq_some_iff.mp hs).1
  have hp : SafeTo (prepareSection p.nt.fileAlign p.nt.secAlign s) fun t => t.va = s.va ∧ t.data = s.data := by
    unfold prepareSection
    dsimp only
    unfold throwIf
    split
    · exact SafeTo.throwE _
    · rw [ok_bind]
      split <;> exact SafeTo.ok ⟨rfl, rfl⟩
  refine SafeTo.bind hp fun t ht => ?_
  simp only [Bool.false_eq_true, false_and, if_false]
  have h1 := TailOnly.set (t := t) hs ht.1 fun h => absurd hl h
  split
  · refine setVirtualSize_tail.imp fun q hq => ⟨h1.trans hq.1, ?_⟩
    obtain ⟨t', a, b⟩ := hq.2 t (List.getElem?_set_self hil)
    exact ⟨t', a, b.trans ht.2⟩
  · exact SafeTo.ok ⟨h1, t, List.getElem?_set_self hil, ht.2⟩

theorem dataLenSec_noUB (p : Image) (s : Sec) (rva : Nat) (t : DataType) : NoUB (p.dataLenSec s rva t) := by
  unfold Image.dataLenSec
  split
  · exact NoUB.ok _
  · exact NoUB.throwE _

/-- After the attempt to expand, only the last section may be another one; and if the address lies in the last section, and room for
    `n` bytes of raw data is asked for, there is this room. -/
theorem expandQuiet_tail (p : Image) (rva n : Nat) (e : ExpandType) : SafeTo (p.expandQuiet rva n e) fun q => TailOnly p q ∧ (∀ f, p.secIdxFromRva rva = .error f → q = p) ∧
    (e = .raw → 0 < n → rva + n < 4294967296 → ∀ (j : Nat) (s : Sec), p.secIdxFromRva rva = .ok j → p.secs[j]? = some s → j + 1 = p.secs.length →
      rva - s.va ≤ 2147483648 → ∃ t, q.secs[j]? = some t ∧ t.va = s.va ∧ rva - s.va + n ≤ t.data.length) := by
  unfold Image.expandQuiet
  cases hi : p.secIdxFromRva rva with
  | error f => exact SafeTo.ok ⟨TailOnly.refl p, (fun _ _ => rfl), fun _ _ _ j s h => by cases h⟩
  | ok i =>
    obtain ⟨s, hs, hc, -⟩ := idx_first hi
    have hva := containsRva_va hc
    have hil := (List.getElem?_eq_some_iff.mp hs).1
    dsimp only
    by_cases hl : i + 1 = p.secs.length
    · cases e with
      | virt =>
        unfold Image.expandSection
        rw [hs]
        dsimp only
        rw [if_neg (by omega)]
        have hd := dataLenSec_noUB p s rva .virt
        cases hlen : p.dataLenSec s rva .virt with
        | error f =>
          rw [hlen] at hd
          cases f with
          | ub u => exact absurd rfl (hd u)
          | exn x =>
            show SafeTo (.ok (p.expandLeft i rva n .virt)) _
            unfold Image.expandLeft
            rw [hs]
            exact SafeTo.ok ⟨TailOnly.refl p, nofun, fun h => by cases h⟩
        | ok len =>
          rw [ok_bind]
          split
          · next hx =>
            split at hx
            · have hv := setVirtualSize_tail (p := p) (i := i) (v := w32 (sub32 rva s.va + n))
              cases hq : p.setSectionVirtualSize i (w32 (sub32 rva s.va + n)) with
              | error f => rw [hq] at hx; cases hx
              | ok q =>
                rw [hq] at hx; cases hx
                exact SafeTo.ok ⟨(hv.2 q hq).1, nofun, fun h => by cases h⟩
            · cases hx; exact SafeTo.ok ⟨TailOnly.refl p, nofun, fun h => by cases h⟩
          · next hx =>
            split at hx
            · have hv := setVirtualSize_tail (p := p) (i := i) (v := w32 (sub32 rva s.va + n))
              cases hq : p.setSectionVirtualSize i (w32 (sub32 rva s.va + n)) with
              | error f => rw [hq] at hx; cases hx; exact absurd hq (hv.1 _)
              | ok q => rw [hq] at hx; cases hx
            · cases hx
          · unfold Image.expandLeft
            rw [hs]
            exact SafeTo.ok ⟨TailOnly.refl p, nofun, fun h => by cases h⟩
      | raw =>
        unfold Image.expandSection Image.expandLeft
        rw [hs]
        dsimp only
        rw [if_neg (by omega)]
        have hlen : p.dataLenSec s rva .raw = .ok (if sub32 (w32 (w32 s.data.length + s.va)) rva ≥ 2147483648 then 0
            else sub32 (w32 (w32 s.data.length + s.va)) rva) := by
          unfold Image.dataLenSec
          rw [if_pos hc]
          rfl
        rw [hlen, ok_bind]
        dsimp only
        generalize hL : (if sub32 (w32 (w32 s.data.length + s.va)) rva ≥ 2147483648 then 0
            else sub32 (w32 (w32 s.data.length + s.va)) rva) = L
        have hset : ∀ t : Sec, t.va = s.va → TailOnly p { p with secs := p.secs.set i t } := fun t ht =>
          TailOnly.set hs ht fun h => absurd hl h
        have hres : rva + n < 4294967296 → ∀ t : Sec, t.data = resize s.data (w32 (sub32 rva s.va + n)) → rva - s.va + n ≤ t.data.length := by
          intro hlt t ht
          rw [ht, resize_length, sub32_of_le hva (by omega), w32, Nat.mod_eq_of_lt (by omega)]
          omega
        by_cases hn : L < n
        · simp only [if_pos hn]
          have hset' := hset { s with data := resize s.data (w32 (sub32 rva s.va + n)) } rfl
          have hr := recalculate_tail (p := { p with secs := p.secs.set i { s with data := resize s.data (w32 (sub32 rva s.va + n)) } })
            (List.getElem?_set_self hil) (by show i + 1 = (p.secs.set i _).length; rw [List.length_set]; exact hl)
          cases hq : ({ p with secs := p.secs.set i { s with data := resize s.data (w32 (sub32 rva s.va + n)) } } : Image).recalculateSectionSizes i false with
          | error f =>
            cases f with
            | ub u => exact absurd hq (hr.1 u)
            | exn x =>
              show SafeTo (.ok (if i + 1 = p.secs.length ∧ L < n then _ else p)) _
              rw [if_pos ⟨hl, hn⟩]
              refine SafeTo.ok ⟨hset _ rfl, nofun, fun _ hn0 hlt j s' hj hs' _ _ => ?_⟩
              cases hj
              rw [hs] at hs'; cases hs'
              exact ⟨_, List.getElem?_set_self hil, rfl, hres hlt _ rfl⟩
          | ok q =>
            obtain ⟨h1, t, ht, hd⟩ := hr.2 q hq
            show SafeTo (.ok q) _
            refine SafeTo.ok ⟨hset'.trans h1, nofun, fun _ hn0 hlt j s' hj hs' _ _ => ?_⟩
            cases hj
            rw [hs] at hs'; cases hs'
            refine ⟨t, ht, ?_, hres hlt t hd⟩
            obtain ⟨s2, hs2, e2, -⟩ := (hset'.trans h1).va _ t ht
            rw [hs] at hs2; cases hs2; exact e2
        · simp only [if_neg hn]
          refine SafeTo.ok ⟨TailOnly.refl p, nofun, fun _ hn0 hlt j s' hj hs' _ hfar => ?_⟩
          cases hj
          rw [hs] at hs'; cases hs'
          refine ⟨s, hs, rfl, ?_⟩
          rw [← hL] at hn
          split at hn
          · omega
          · unfold sub32 w32 at *; omega
    · have hx : p.expandSection i rva n e = throwE .errorExpandingSection := by
        unfold Image.expandSection
        rw [hs]
        dsimp only
        rw [if_pos hl]
      have hleft : p.expandLeft i rva n e = p := by
        unfold Image.expandLeft
        rw [hs]
        cases e with
        | virt => rfl
        | raw =>
          dsimp only
          split
          · rw [if_neg (fun h => hl h.1)]
          · rfl
      rw [hx]
      show SafeTo (.ok (p.expandLeft i rva n e)) _
      rw [hleft]
      refine SafeTo.ok ⟨TailOnly.refl p, nofun, fun _ _ _ j s' hj _ hlast => ?_⟩
      cases hj
      exact absurd hlast hl

theorem containsRva_same {s t : Sec} (h1 : t.va = s.va) (h2 : t.vsize = s.vsize) (h3 : t.rawSize = s.rawSize) (a r : Nat) :
    t.containsRva a r = s.containsRva a r := by
  unfold Sec.containsRva Sec.alignedVS
  rw [h1, h2, h3]

theorem CallbackRoom.tail {p q : Image} {rva n : Nat} (h : CallbackRoom p rva n) (g : TailOnly p q) : CallbackRoom q rva n := by
  refine ⟨h.fin, by rw [g.hdr]; exact h.hdr, fun j t ht hj hc => ?_, fun j t ht hj => ?_⟩
  · obtain ⟨s, hs, e, k⟩ := g.va j t ht
    rw [g.len] at hj
    obtain ⟨k1, k2, k3⟩ := k hj
    rw [containsRva_same e k1 k2, g.sa] at hc
    have := h.sec j s hs hj hc
    omega
  · obtain ⟨s, hs, e, -⟩ := g.va j t ht
    rw [g.len] at hj
    rw [e]
    exact h.last j s hs hj

theorem tlsVas_safe (p : Image) (l : List Nat) : SafeTo (p.tlsVas l) fun r => r.length = l.length := by
  induction l with
  | nil => exact SafeTo.ok rfl
  | cons a l ih =>
    unfold Image.tlsVas
    refine SafeTo.bind (Q := fun _ => True) ⟨rvaToVa_noUB _ _, fun _ _ => trivial⟩ fun va _ => SafeTo.bind ih fun r hr => SafeTo.ok ?_
    rw [List.length_cons, List.length_cons, hr]

theorem flatMap_leBytes_length (w : Nat) (l : List Nat) : (l.flatMap (leBytes w)).length = w * l.length := by
  induction l with
  | nil => rfl
  | cons a l ih => rw [List.flatMap_cons, List.length_append, leBytes_length, ih, List.length_cons, Nat.mul_succ]; omega

theorem SafeTo.noUB {α : Type} {x : Res α} (h : NoUB x) : SafeTo x fun a => x = .ok a := ⟨h, fun _ e => e⟩

theorem tlsPutData_fit (p : Image) (t : TlsInfo) (e : ExpandType) (hraw : t.start ≠ 0 → t.stop ≤ t.start + t.raw.length + 1) :
    SafeTo (p.tlsPutData t e) fun q => TailOnly p q := by
  unfold Image.tlsPutData
  split
  · next h0 =>
    have hlen := hraw h0.1
    refine SafeTo.bind (expandQuiet_tail p t.start (t.stop - t.start) e) fun q hq => ?_
    have hroom : SafeTo (q.tlsRoom t.start (t.stop - t.start)) fun n => n ≤ t.stop - t.start ∧
        ∃ a, q.dataLenFrom t.start t.start .raw true = .ok a ∧ n ≤ a := by
      unfold Image.tlsRoom
      refine SafeTo.bind (SafeTo.noUB (dataLenFrom_safe _ _ _ _ _)) fun a ha => ?_
      split
      · refine SafeTo.bind (SafeTo.noUB (dataLenFrom_safe _ _ _ _ _)) fun v _ => ?_
        split
        · exact SafeTo.throwE _
        · exact SafeTo.ok ⟨by omega, a, ha, Nat.le_refl _⟩
      · exact SafeTo.ok ⟨Nat.le_refl _, a, ha, by omega⟩
    refine SafeTo.bind hroom fun n hn => ?_
    obtain ⟨hn, a, ha, hna⟩ := hn
    split
    · exact SafeTo.ok hq.1
    · refine SafeTo.bind (mutPtr_room ha (by omega) hna) fun l hl => ?_
      have hb : readN (t.raw ++ [0]) 0 n = .ok (slice (t.raw ++ [0]) 0 n) := readN_ok (by simp only [List.length_append, List.length_singleton]; omega)
      rw [hb, ok_bind]
      obtain ⟨r, hr⟩ := hl (slice (t.raw ++ [0]) 0 n) (slice_length_of_le (by simp only [List.length_append, List.length_singleton]; omega))
      rw [hr]
      exact SafeTo.ok (hq.1.trans (writeLoc_onlyBytes hr).tail)
  · exact SafeTo.ok (TailOnly.refl p)

theorem tlsPutCallbacks_fit (p : Image) (t : TlsInfo) (h : t.callbacksRva ≠ 0 → CallbackRoom p t.callbacksRva (p.kind.ptr * (t.callbacks.length + 1))) :
    SafeTo (p.tlsPutCallbacks t) fun q => TailOnly p q := by
  unfold Image.tlsPutCallbacks
  split
  · next h0 =>
    have hr := h h0
    have hp0 := p.kind.ptr_pow2.pos
    have hfin := hr.fin
    have hneed : w32 ((t.callbacks.length + 1) * p.kind.ptr) = p.kind.ptr * (t.callbacks.length + 1) := by
      rw [Nat.mul_comm, w32, Nat.mod_eq_of_lt (by omega)]
    have hpos : 0 < p.kind.ptr * (t.callbacks.length + 1) := Nat.mul_pos hp0 (by omega)
    rw [hneed]
    generalize hN : p.kind.ptr * (t.callbacks.length + 1) = N at *
    refine SafeTo.bind (expandQuiet_tail p t.callbacksRva N .raw) fun q hq => ?_
    obtain ⟨hq, hnone, hq'⟩ := hq
    have hr' := hr.tail hq
    have hraw : RawRoom q t.callbacksRva N := by
      refine ⟨hr'.hdr, fun _ j s hs hc hf => ?_⟩
      by_cases hj : j + 1 = q.secs.length
      · cases hi : p.secIdxFromRva t.callbacksRva with
        | error f =>
          exfalso
          have := hnone f hi
          subst this
          unfold Image.secIdxFromRva at hi
          split at hi
          · cases hi
          · next hnf =>
            rw [List.findIdx?_eq_none_iff] at hnf
            rw [hnf s (List.mem_of_getElem? hs)] at hc
            cases hc
        | ok k =>
          obtain ⟨s', hs', hc', -⟩ := idx_first hi
          have hkl : k < p.secs.length := (List.getElem?_eq_some_iff.mp hs').1
          by_cases hk : k + 1 = p.secs.length
          · have : k = j := by rw [hq.len] at hj; omega
            subst this
            obtain ⟨u, hu, hva, hlen⟩ := hq' rfl hpos hr.fin k s' hi hs' hk (hr.last k s' hs' hk)
            rw [hs] at hu; cases hu
            rw [hva]; exact hlen
          · exfalso
            obtain ⟨u, hu⟩ : ∃ u, q.secs[k]? = some u := ⟨_, List.getElem?_eq_getElem (by rw [hq.len]; exact hkl)⟩
            obtain ⟨s2, hs2, e, kk⟩ := hq.va k u hu
            rw [hs'] at hs2; cases hs2
            obtain ⟨k1, k2, -⟩ := kk hk
            have hcu : u.containsRva q.nt.secAlign t.callbacksRva = true := by rw [containsRva_same e k1 k2, hq.sa]; exact hc'
            rw [hf k u (by rw [hq.len] at hj; omega) hu] at hcu
            cases hcu
      · exact hr'.sec j s hs hj hc
    refine SafeTo.bind (SafeTo.noUB (dataLenFrom_safe _ _ _ _ _)) fun a _ => SafeTo.bind (SafeTo.noUB (NoUB.throwIf _ _)) fun _ _ =>
      SafeTo.bind (SafeTo.noUB (dataLenFrom_safe _ _ _ _ _)) fun v _ => SafeTo.bind (SafeTo.noUB (NoUB.throwIf _ _)) fun _ _ =>
      SafeTo.bind (tlsVas_safe _ _) fun vas hvas => SafeTo.bind (mutPtr_true hraw hpos) fun l hl => ?_
    obtain ⟨r, hw⟩ := hl (((vas ++ [0]).flatMap (leBytes q.kind.ptr)).take N) (by
      rw [List.length_take, flatMap_leBytes_length, List.length_append, List.length_singleton, hvas, hq.kind, hN]; omega)
    rw [hw]
    exact SafeTo.ok (hq.trans (writeLoc_onlyBytes hw).tail)
  · exact SafeTo.ok (TailOnly.refl p)

/-- C94: writing the TLS directory. The string with the raw data has to cover the range (its terminator is readable), and the list of
    callbacks must have room; both are necessary, see `C43_short_data` and `C43_callbacks_overrun`. -/
theorem C94_tls (p : Image) (hd : p.nt.dirs.length = 16) (t : TlsInfo) (i off : Nat) (wcb wdata : Bool) (e : ExpandType) (save strip : Bool)
    (h : off + (p.kind.ptr - 1) + p.kind.sizeofTls < 4294967296)
    (hraw : wdata = true → t.start ≠ 0 → t.stop ≤ t.start + t.raw.length + 1)
    (hcb : wcb = true → t.callbacksRva ≠ 0 → CallbackRoom p t.callbacksRva (p.kind.ptr * (t.callbacks.length + 1))) (u : UB) :
    p.rebuildTls t i off wcb wdata e save strip ≠ ubE u := by
  refine (show NoUB (p.rebuildTls t i off wcb wdata e save strip) from ?_) u
  unfold Image.rebuildTls
  split
  · exact NoUB.throwE _
  · next s hs =>
    have hil := (List.getElem?_eq_some_iff.mp hs).1
    obtain ⟨a1, a2, -⟩ := alignUp_bounds (off := off) p.kind.ptr_pow2 (by omega)
    have w1 : w32 (p.kind.sizeofTls + alignUp off p.kind.ptr) = p.kind.sizeofTls + alignUp off p.kind.ptr := Nat.mod_eq_of_lt (by omega)
    dsimp only
    rw [w1]
    have hv : ∀ r, NoUB (p.vaOrZero r) := by
      intro r
      unfold Image.vaOrZero
      split
      · exact rvaToVa_noUB _ _
      · exact NoUB.ok _
    have hst : SafeTo (p.tlsStruct t) fun b => b.length = p.kind.sizeofTls := by
      unfold Image.tlsStruct
      refine SafeTo.bind (SafeTo.noUB (hv _)) fun _ _ => SafeTo.bind (SafeTo.noUB (hv _)) fun _ _ =>
        SafeTo.bind (SafeTo.noUB (rvaToVa_noUB _ _)) fun _ _ => SafeTo.bind (SafeTo.noUB (hv _)) fun _ _ => SafeTo.ok ?_
      rw [encFields_length]
      cases p.kind <;> rfl
    refine NoUB.bind (NoUB.throwIf _ _) fun _ _ => NoUB.bind (NoUB.throwIf _ _) fun _ _ => NoUB.bind hst.1 fun b hb => ?_
    have hbl := hst.2 b hb
    have hg := growTo_max s.data (p.kind.sizeofTls + alignUp off p.kind.ptr)
    obtain ⟨d, ed, ld⟩ := writeAt_fit (d := growTo s.data (p.kind.sizeofTls + alignUp off p.kind.ptr)) (o := alignUp off p.kind.ptr) (x := b) (by omega)
    rw [ed, ok_bind]
    have t0 : TailOnly p { p with secs := p.secs.set i { s with data := d } } := TailOnly.set hs rfl fun _ => ⟨rfl, rfl, by show _ ≤ d.length; omega⟩
    have h1 : SafeTo (({ p with secs := p.secs.set i { s with data := d } } : Image).tlsPutDataIf wdata t e) fun q => TailOnly p q := by
      unfold Image.tlsPutDataIf
      split
      · next hw => exact (tlsPutData_fit _ t e (hraw hw)).imp fun q hq => t0.trans hq
      · exact SafeTo.ok t0
    refine NoUB.bind h1.1 fun q hq => ?_
    have t1 := h1.2 q hq
    have h2 : SafeTo (q.tlsPutCallbacksIf wcb t) fun r => TailOnly p r := by
      unfold Image.tlsPutCallbacksIf
      split
      · next hw => exact (tlsPutCallbacks_fit q t (fun h0 => by rw [t1.kind]; exact (hcb hw h0).tail t1)).imp fun r hr => t1.trans hr
      · exact SafeTo.ok t1
    refine NoUB.bind h2.1 fun r hr => ?_
    have t2 := h2.2 r hr
    unfold Image.tlsFinish
    have hlt : i < r.secs.length := by rw [t2.len]; exact hil
    rw [List.getElem?_eq_getElem hlt]
    exact finishDir_noUB hlt (by rw [t2.dirs]; exact hd) (by decide)

end PE
