/-
Lemmas about writing to streams.
-/
import Verif.Spec.SaveStream
import Verif.Lemmas.FailingSimple
namespace PE

/-! ### The monad -/

theorem orun_ok {α β : Type} {m : OM α} {g : α → OM β} {x y : Image × OStream} {a : α} (h : m x = (.ok a, y)) :
    (m >>= g) x = g a y := by
  show OM.andThen m g x = _
  unfold OM.andThen; rw [h]

theorem orun_error {α β : Type} {m : OM α} {g : α → OM β} {x y : Image × OStream} {e : Fault} (h : m x = (.error e, y)) :
    (m >>= g) x = (.error e, y) := by
  show OM.andThen m g x = _
  unfold OM.andThen; rw [h]

theorem orun_lift {α β : Type} {r : Res α} {a : α} (h : r = .ok a) {g : α → OM β} {x : Image × OStream} :
    (OM.lift r >>= g) x = g a x := orun_ok (by unfold OM.lift; rw [h])

theorem orun_liftE {α β : Type} {r : Res α} {e : Fault} (h : r = .error e) {g : α → OM β} {x : Image × OStream} :
    (OM.lift r >>= g) x = (.error e, x) := orun_error (by unfold OM.lift; rw [h])

/-! ### Overwriting -/

theorem overwrite_nil (d : Bytes) (k : Nat) : overwrite d k [] = d := by unfold overwrite; rw [if_pos rfl]

theorem overwrite_append (d : Bytes) (k : Nat) (x y : Bytes) :
    overwrite (overwrite d k x) (k + x.length) y = overwrite d k (x ++ y) := by
  by_cases hy : y = []
  · rw [hy, overwrite_nil, List.append_nil]
  by_cases hx : x = []
  · rw [hx, overwrite_nil]; simp
  unfold overwrite
  rw [if_neg hy, if_neg hx, if_neg (by simp [hx])]
  have h1 : resize (resize d k ++ (x ++ d.drop (k + x.length))) (k + x.length) = resize d k ++ x := by
    unfold resize
    rw [← List.append_assoc, List.take_append_of_le_length (by simp; omega)]
    have hl : (d.take k ++ zeros (k - d.length) ++ x).length = k + x.length := by simp; omega
    rw [List.take_of_length_le (by omega)]
    have : k + x.length - (d.take k ++ zeros (k - d.length) ++ x ++ d.drop (k + x.length)).length = 0 := by
      simp; omega
    rw [this, show zeros 0 = [] from rfl, List.append_nil]
  have h2 : (resize d k ++ (x ++ d.drop (k + x.length))).drop (k + x.length + y.length) = d.drop (k + (x ++ y).length) := by
    have hl : (resize d k ++ x).length = k + x.length := by simp
    rw [← List.append_assoc, ← List.drop_drop, List.drop_append_of_le_length (by omega), List.drop_of_length_le (Nat.le_of_eq hl),
      List.nil_append, List.drop_drop, List.length_append, Nat.add_assoc]
  rw [h1, h2]
  simp

/-! ### Writing -/

theorem Wrote.start (o : OStream) (old : Bytes) (h : o.data = old) : Wrote old o.pos [] o.fresh :=
  ⟨0, Nat.le_refl _, by rw [List.take_nil, overwrite_nil]; exact h, rfl, by simp [OStream.fresh], by simp [OStream.fresh], rfl, rfl⟩

theorem Wrote.good_iff {old : Bytes} {k : Nat} {b : Bytes} {o : OStream} (h : Wrote old k b o) : o.good = true ↔ o.bad = false := by
  obtain ⟨n, h1, h2, h3, h4, h5, h6, h7⟩ := h
  unfold OStream.good
  rw [h6]
  cases hb : o.bad
  · rw [hb] at h5
    cases hf : o.fail
    · simp
    · exact absurd (h5 hf) (by simp)
  · simp

theorem Wrote.pos {old : Bytes} {k : Nat} {b : Bytes} {o : OStream} (h : Wrote old k b o) (hb : o.bad = false) :
    o.pos = k + b.length ∧ o.data = overwrite old k b := by
  obtain ⟨n, h1, h2, h3, h4, h5, h6, h7⟩ := h
  have hn : n = b.length := by
    have : ¬ n < b.length := fun x => by rw [h4.mpr x] at hb; cases hb
    omega
  exact ⟨by omega, by rw [h2, hn, List.take_length]⟩

/-- A failed stream: nothing more is written. -/
theorem Wrote.more {old : Bytes} {k : Nat} {b : Bytes} {o : OStream} (h : Wrote old k b o) (hb : o.bad = true) (c : Bytes) :
    Wrote old k (b ++ c) o := by
  obtain ⟨n, h1, h2, h3, h4, h5, h6, h7⟩ := h
  have hn := h4.mp hb
  refine ⟨n, by rw [List.length_append]; omega, ?_, h3, ?_, h5, h6, h7⟩
  · rw [h2, List.take_append_of_le_length h1]
  · simp only [hb, List.length_append, true_iff]; omega

theorem OStream.write_bad (md : Medium) (b : Bytes) {o : OStream} (h : o.bad = true) : o.write md b = { o with fail := true } := by
  unfold OStream.write
  rw [if_neg (by unfold OStream.good; rw [h]; simp)]

theorem Wrote.failed {old : Bytes} {k : Nat} {b : Bytes} {o : OStream} (h : Wrote old k b o) (hb : o.bad = true) :
    Wrote old k b { o with fail := true } := by
  obtain ⟨n, h1, h2, h3, h4, h5, h6, h7⟩ := h
  exact ⟨n, h1, h2, h3, h4, fun _ => hb, h6, h7⟩

theorem Wrote.write {old : Bytes} {k : Nat} {b : Bytes} {o : OStream} (h : Wrote old k b o) (md : Medium) (c : Bytes) :
    Wrote old k (b ++ c) (o.write md c) := by
  cases hb : o.bad
  · have hg := h.good_iff.mpr hb
    obtain ⟨p1, p2⟩ := h.pos hb
    obtain ⟨n, h1, h2, h3, h4, h5, h6, h7⟩ := h
    unfold OStream.write
    rw [if_pos hg]
    dsimp only
    refine ⟨b.length + min c.length (md o.pos c.length), by rw [List.length_append]; omega, ?_, (by dsimp only; omega), ?_, ?_, h6, h7⟩
    · rw [p2, p1, overwrite_append, List.take_length_add_append]
    · simp only [List.length_append, decide_eq_true_eq]; omega
    · intro hf; rw [hb] at h5; exact absurd (h5 hf) (by simp)
  · rw [OStream.write_bad md c hb]
    exact (h.more hb c).failed hb

theorem OStream.write_unlimited {md : Medium} (hm : md.Unlimited) (b : Bytes) {o : OStream} (h : o.bad = false) :
    (o.write md b).bad = false := by
  unfold OStream.write
  split
  · have := hm o.pos b.length
    simp only [decide_eq_false_iff_not]
    omega
  · exact h

/-- An operation that only writes `c`. -/
def Puts (md : Medium) (c : Bytes) (m : OM Unit) : Prop := ∀ p old k b o, Wrote old k b o →
  ∃ o', m (p, o) = (.ok (), p, o') ∧ Wrote old k (b ++ c) o' ∧ (md.Unlimited → o.bad = false → o'.bad = false)

theorem Puts.pure (md : Medium) : Puts md [] (Pure.pure () : OM Unit) := fun _ _ _ _ o h =>
  ⟨o, rfl, by rw [List.append_nil]; exact h, fun _ hb => hb⟩

theorem Puts.bind {md : Medium} {c d : Bytes} {m n : OM Unit} (hm : Puts md c m) (hn : Puts md d n) :
    Puts md (c ++ d) (m >>= fun _ => n) := by
  intro p old k b o h
  obtain ⟨o1, e1, w1, u1⟩ := hm p old k b o h
  obtain ⟨o2, e2, w2, u2⟩ := hn p old k (b ++ c) o1 w1
  exact ⟨o2, by rw [orun_ok e1, e2], by rw [← List.append_assoc]; exact w2, fun hu hb => u2 hu (u1 hu hb)⟩

theorem Puts.write {md : Medium} {r : Res Bytes} {c : Bytes} (h : r = .ok c) : Puts md c (OM.write md r) := by
  intro p old k b o w
  unfold OM.write
  dsimp only
  rw [h]
  cases hb : o.bad
  · rw [if_pos (w.good_iff.mpr hb)]
    exact ⟨_, rfl, w.write md c, fun hu _ => OStream.write_unlimited hu c hb⟩
  · have hg : ¬ o.good = true := fun x => by rw [w.good_iff.mp x] at hb; cases hb
    rw [if_neg hg, OStream.write_bad md [] hb]
    exact ⟨_, rfl, (w.more hb c).failed hb, fun _ x => absurd x (by simp)⟩

theorem Puts.zeros (md : Medium) (n : Nat) : Puts md (zeros n) (putZerosO md n) := by
  induction n with
  | zero => exact Puts.pure md
  | succ n ih => exact Puts.bind (Puts.write rfl) ih

theorem Puts.stub (md : Medium) (stub : Bytes) : Puts md (stub ++ PE.zeros (alignUp64 stub.length 4 - stub.length)) (putStubO md stub) := by
  unfold putStubO
  split
  · next h => rw [h]; exact Puts.pure md
  · exact Puts.bind (Puts.write rfl) (Puts.zeros md _)

theorem Puts.headers (md : Medium) (l : List Sec) : Puts md (l.flatMap encSec) (putHeadersO md l) := by
  induction l with
  | nil => exact Puts.pure md
  | cons s l ih => exact Puts.bind (Puts.write rfl) ih

theorem Puts.bound {md : Medium} {q : Image} {save : Bool} {rva : Nat} {c : Bytes} (h : q.boundBytes save rva = .ok c) :
    Puts md c (putBoundO md q save rva) := by
  unfold Image.boundBytes at h
  obtain ⟨w, hw, h⟩ := bind_ok_iff.mp h
  intro p old k b o x
  unfold putBoundO
  rw [orun_lift hw]
  cases w
  · rw [if_neg (by simp)] at h
    cases h
    rw [if_neg (by simp)]
    exact Puts.pure md p old k b o x
  · rw [if_pos rfl] at h
    obtain ⟨a, ha, h⟩ := bind_ok_iff.mp h
    obtain ⟨size, hsz, h⟩ := bind_ok_iff.mp h
    rw [if_pos rfl]
    unfold putDirO
    rw [orun_lift ha, orun_lift hsz]
    exact Puts.write h p old k b o x

/-- Filling up to the raw pointer. -/
theorem fillToO_wrote {md : Medium} {s : Sec} {p : Image} {old : Bytes} {k : Nat} {b : Bytes} {o : OStream} (w : Wrote old k b o)
    (hs : s.rawPtr < 4294967295 ∨ (o.bad = false ∧ s.rawPtr < 4294967296)) :
    ∃ o', fillToO md s.rawPtr o.tellp (p, o) = (.ok (), p, o') ∧ Wrote old k (b ++ zeros (s.rawPtr - (k + b.length))) o' ∧
      (md.Unlimited → o.bad = false → o'.bad = false) ∧ (o.bad = true → o'.bad = true) := by
  cases hb : o.bad
  · obtain ⟨p1, _⟩ := w.pos hb
    have hf : o.fail = false := by
      obtain ⟨n, h1, h2, h3, h4, h5, h6, h7⟩ := w
      cases hf : o.fail
      · rfl
      · rw [h5 hf] at hb; cases hb
    have ht : o.tellp = ((k + b.length : Nat) : Int) := by unfold OStream.tellp; rw [hb, hf, p1]; rfl
    have hn : ((s.rawPtr : Int) - o.tellp).toNat = s.rawPtr - (k + b.length) := by rw [ht]; omega
    unfold fillToO
    rw [hn, if_neg (by omega)]
    obtain ⟨o', e1, w1, u1⟩ := Puts.zeros md (s.rawPtr - (k + b.length)) p old k b o w
    exact ⟨o', e1, w1, fun hu _ => u1 hu hb, fun x => absurd x (by simp)⟩
  · have ht : o.tellp = -1 := by unfold OStream.tellp; rw [hb]; rfl
    have hlt : s.rawPtr < 4294967295 := by
      rcases hs with h | ⟨h, _⟩
      · exact h
      · rw [hb] at h; cases h
    have hn : ((s.rawPtr : Int) - o.tellp).toNat = s.rawPtr + 1 := by rw [ht]; omega
    unfold fillToO
    rw [hn, if_neg (by omega)]
    have : ∀ n, ∀ o : OStream, Wrote old k b o → o.bad = true → ∃ o', putZerosO md n (p, o) = (.ok (), p, o') ∧ Wrote old k b o' ∧ o'.bad = true := by
      intro n
      induction n with
      | zero => exact fun o w h => ⟨o, rfl, w, h⟩
      | succ n ih =>
        intro o w h
        have hg : ¬ o.good = true := fun x => by rw [w.good_iff.mp x] at h; cases h
        obtain ⟨o', e1, w1, b1⟩ := ih { o with fail := true } (w.failed h) h
        refine ⟨o', ?_, w1, b1⟩
        unfold putZerosO
        rw [orun_ok (show OM.write md (.ok [0]) (p, o) = (.ok (), p, { o with fail := true }) by
          unfold OM.write; dsimp only; rw [if_neg hg, OStream.write_bad md [] h]), e1]
    obtain ⟨o', e1, w1, b1⟩ := this (s.rawPtr + 1) o w hb
    exact ⟨o', e1, w1.more b1 _, fun _ x => absurd x (by simp), fun _ => b1⟩

theorem putSecsO_wrote {md : Medium} {l : List Sec} {p : Image} {old : Bytes} {k : Nat} {b r : Bytes} {o : OStream}
    (w : Wrote old k b o) (h : writeSecs (k + b.length) l = .ok r)
    (hs : (∀ s ∈ l, s.rawPtr < 4294967295) ∨ ((md.Unlimited ∧ o.bad = false) ∧ ∀ s ∈ l, s.rawPtr < 4294967296)) :
    ∃ o', putSecsO md l (p, o) = (.ok (), p, o') ∧ Wrote old k (b ++ r) o' ∧ (md.Unlimited → o.bad = false → o'.bad = false) := by
  induction l generalizing b r o with
  | nil =>
    unfold writeSecs at h
    cases h
    exact ⟨o, rfl, by rw [List.append_nil]; exact w, fun _ hb => hb⟩
  | cons s l ih =>
    unfold writeSecs at h
    obtain ⟨d, hd, h⟩ := bind_ok_iff.mp h
    obtain ⟨r', hr', h⟩ := bind_ok_iff.mp h
    injection h with h
    have hdl : d.length = s.rawSize := by
      unfold readN at hd
      split at hd
      · next hc => cases hd; rw [slice_length]; omega
      · simp at hd
    obtain ⟨o1, e1, w1, u1, _⟩ := fillToO_wrote (md := md) (p := p) (s := s) w (by
      rcases hs with hs | ⟨⟨_, hb⟩, hs⟩
      · exact Or.inl (hs s (by simp))
      · exact Or.inr ⟨hb, hs s (by simp)⟩)
    obtain ⟨o2, e2, w2, u2⟩ := Puts.write (md := md) hd p old k _ o1 w1
    obtain ⟨o3, e3, w3, u3⟩ := ih (b := b ++ zeros (s.rawPtr - (k + b.length)) ++ d) (r := r') (o := o2) w2
      (by rw [← hr']; congr 1; simp only [List.length_append, zeros_length]; omega) (by
        rcases hs with hs | ⟨⟨hu, hb⟩, hs⟩
        · exact Or.inl fun t ht => hs t (by simp [ht])
        · exact Or.inr ⟨⟨hu, u2 hu (u1 hu hb)⟩, fun t ht => hs t (by simp [ht])⟩)
    refine ⟨o3, ?_, ?_, fun hu hb => u3 hu (u2 hu (u1 hu hb))⟩
    · unfold putSecsO
      rw [orun_ok (show OM.out (p, o) = (.ok o, p, o) from rfl), orun_ok e1, orun_ok e2, e3]
    · rw [← h]
      simpa [List.append_assoc] using w3

/-! ### The whole file -/

theorem writeSecs_anywhere {a : Nat} {l : List Sec} {r : Bytes} (h : writeSecs a l = .ok r) (b : Nat) : ∃ r', writeSecs b l = .ok r' := by
  induction l generalizing a b r with
  | nil => exact ⟨[], rfl⟩
  | cons s l ih =>
    unfold writeSecs at h
    obtain ⟨d, hd, h⟩ := bind_ok_iff.mp h
    obtain ⟨r1, hr1, h⟩ := bind_ok_iff.mp h
    obtain ⟨r2, hr2⟩ := ih hr1 (b + (s.rawPtr - b) + s.rawSize)
    unfold writeSecs
    rw [hd, ok_bind, hr2, ok_bind]
    exact ⟨_, rfl⟩

theorem putFileO_wrote {md : Medium} {q : Image} {strip : Bool} {lf : Nat} {save : Bool} {rva : Nat} {hdr bound r : Bytes}
    {old : Bytes} {k : Nat} {o : OStream} (w : Wrote old k [] o) (h1 : q.headerBytes = .ok hdr) (h2 : q.boundBytes save rva = .ok bound)
    (h3 : writeSecs (k + (q.dosBytes strip lf ++ (hdr ++ bound)).length) q.secs = .ok r)
    (hs : (∀ s ∈ q.secs, s.rawPtr < 4294967295) ∨ ((md.Unlimited ∧ o.bad = false) ∧ ∀ s ∈ q.secs, s.rawPtr < 4294967296)) :
    ∃ o', putFileO md q strip lf save rva (q, o) = (.ok (), q, o') ∧
      Wrote old k (q.dosBytes strip lf ++ (hdr ++ bound) ++ r) o' ∧ (md.Unlimited → o.bad = false → o'.bad = false) := by
  unfold Image.headerBytes at h1
  split at h1
  · simp at h1
  next hn =>
  injection h1 with h1
  have hnt : q.ntBytes = .ok (encFields (ntFields q.kind q.nt) ++ encDirs (q.nt.dirs.take q.nt.numRva)) := by
    unfold Image.ntBytes; rw [if_neg hn]
  obtain ⟨o1, e1, w1, u1⟩ := Puts.write (md := md) (r := .ok (q.dosHeader strip lf)) rfl q old k [] o w
  obtain ⟨o2, e2, w2, u2⟩ := Puts.stub md q.stub q old k _ o1 w1
  obtain ⟨o3, e3, w3, u3⟩ := Puts.write (md := md) hnt q old k _ o2 w2
  obtain ⟨o4, e4, w4, u4⟩ := Puts.headers md q.secs q old k _ o3 w3
  obtain ⟨o5, e5, w5, u5⟩ := Puts.bound (md := md) h2 q old k _ o4 w4
  have hh : [] ++ q.dosHeader strip lf ++ (q.stub ++ zeros (alignUp64 q.stub.length 4 - q.stub.length)) ++
      (encFields (ntFields q.kind q.nt) ++ encDirs (q.nt.dirs.take q.nt.numRva)) ++ q.secs.flatMap encSec ++ bound =
      q.dosBytes strip lf ++ (hdr ++ bound) := by
    rw [← h1]
    unfold Image.dosBytes Image.dosHeader
    simp only [List.nil_append, List.append_assoc]
  rw [hh] at w5
  have hu : md.Unlimited → o.bad = false → o5.bad = false := fun hu hb => u5 hu (u4 hu (u3 hu (u2 hu (u1 hu hb))))
  obtain ⟨o6, e6, w6, u6⟩ := putSecsO_wrote (md := md) (p := q) w5 h3 (by
    rcases hs with hs | ⟨⟨h, hb⟩, hs⟩
    · exact Or.inl hs
    · exact Or.inr ⟨⟨h, hu h hb⟩, hs⟩)
  refine ⟨o6, ?_, w6, fun h hb => u6 h (hu h hb)⟩
  unfold putFileO
  rw [orun_ok e1, orun_ok e2, orun_ok e3, orun_ok e4, orun_ok e5, e6]

/-- The parts of a call that returns in the other model. -/
theorem rebuildPe_parts {p q : Image} {strip chg sb : Bool} {file : Bytes} (h : p.rebuildPe strip chg sb = .ok (q, file)) :
    ∃ rva lf hdr bound data, p.checkBound sb = .ok () ∧ p.boundRva = .ok rva ∧
      p.rebuildHeaders strip chg (sb && !decide (rva ≠ 0 ∧ rva > p.nt.sizeHeaders)) = .ok (q, lf) ∧ q.headerBytes = .ok hdr ∧
      q.boundBytes (sb && !decide (rva ≠ 0 ∧ rva > p.nt.sizeHeaders)) rva = .ok bound ∧
      writeSecs (q.dosBytes strip lf ++ (hdr ++ bound)).length q.secs = .ok data ∧
      file = q.dosBytes strip lf ++ (hdr ++ bound) ++ data := by
  unfold Image.rebuildPe at h
  obtain ⟨u, hc, h⟩ := bind_ok_iff.mp h
  obtain ⟨rva, hr, h⟩ := bind_ok_iff.mp h
  dsimp only at h
  obtain ⟨⟨q', lf⟩, hh, h⟩ := bind_ok_iff.mp h
  dsimp only at h
  obtain ⟨hdr, hd, h⟩ := bind_ok_iff.mp h
  obtain ⟨bound, hbd, h⟩ := bind_ok_iff.mp h
  obtain ⟨data, hw, h⟩ := bind_ok_iff.mp h
  injection h with h
  injection h with h1 h2
  subst h1
  exact ⟨rva, lf, hdr, bound, data, hc, hr, hh, hd, hbd, hw, h2.symm⟩

/-- What `rebuild_pe` writes, from the parts. -/
theorem rebuildPeO_parts {md : Medium} {p q : Image} {strip chg sb : Bool} {o : OStream} {rva lf : Nat} {hdr bound data' : Bytes}
    (hc : p.checkBound sb = .ok ()) (hr : p.boundRva = .ok rva)
    (hh : p.rebuildHeaders strip chg (sb && !decide (rva ≠ 0 ∧ rva > p.nt.sizeHeaders)) = .ok (q, lf)) (hd : q.headerBytes = .ok hdr)
    (hbd : q.boundBytes (sb && !decide (rva ≠ 0 ∧ rva > p.nt.sizeHeaders)) rva = .ok bound)
    (hw' : writeSecs (o.pos + (q.dosBytes strip lf ++ (hdr ++ bound)).length) q.secs = .ok data') (hb : o.bad = false)
    (hs : (∀ s ∈ q.secs, s.rawPtr < 4294967295) ∨ (md.Unlimited ∧ ∀ s ∈ q.secs, s.rawPtr < 4294967296)) :
    ∃ o', rebuildPeO md strip chg sb (p, o) = (.ok (), q, o') ∧
      Wrote o.data o.pos (q.dosBytes strip lf ++ (hdr ++ bound) ++ data') o' ∧ (md.Unlimited → o'.bad = false) := by
  obtain ⟨o', e, w, hu⟩ := putFileO_wrote (md := md) (q := q) (strip := strip) (lf := lf) (Wrote.start o o.data rfl) hd hbd hw' (by
    rcases hs with hs | ⟨h, hs⟩
    · exact Or.inl hs
    · exact Or.inr ⟨⟨h, rfl⟩, hs⟩)
  refine ⟨o', ?_, w, fun h => hu h rfl⟩
  unfold rebuildPeO
  rw [orun_ok (show OM.out (p, o) = (.ok o, p, o) from rfl), orun_lift (throwIf_neg (by rw [hb]; simp)),
    orun_ok (show OM.image (p, o) = (.ok p, p, o) from rfl), orun_lift hc,
    orun_ok (show OM.modify OStream.fresh (p, o) = (.ok (), p, o.fresh) from rfl), orun_lift hr]
  have hm := result_ok_iff.1 ((rebuildHeadersM_result strip chg (sb && !decide (rva ≠ 0 ∧ rva > p.nt.sizeHeaders)) p).trans hh)
  rw [orun_ok (show OM.ofImage (rebuildHeadersM strip chg (sb && !decide (rva ≠ 0 ∧ rva > p.nt.sizeHeaders))) (p, o.fresh) =
    (.ok lf, q, o.fresh) by unfold OM.ofImage; rw [hm]), orun_ok (show OM.image (q, o.fresh) = (.ok q, q, o.fresh) from rfl)]
  exact e

/-- What `rebuild_pe` writes, if the same call returns in the other model. -/
theorem rebuildPeO_ok {md : Medium} {p q : Image} {strip chg sb : Bool} {file : Bytes} {o : OStream}
    (h : p.rebuildPe strip chg sb = .ok (q, file)) (hb : o.bad = false)
    (hs : (∀ s ∈ q.secs, s.rawPtr < 4294967295) ∨ (md.Unlimited ∧ ∀ s ∈ q.secs, s.rawPtr < 4294967296)) :
    ∃ head data data' o', file = head ++ data ∧ writeSecs head.length q.secs = .ok data ∧
      writeSecs (o.pos + head.length) q.secs = .ok data' ∧
      rebuildPeO md strip chg sb (p, o) = (.ok (), q, o') ∧ Wrote o.data o.pos (head ++ data') o' ∧
      (md.Unlimited → o'.bad = false) := by
  obtain ⟨rva, lf, hdr, bound, data, hc, hr, hh, hd, hbd, hw, hf⟩ := rebuildPe_parts h
  obtain ⟨data', hw'⟩ := writeSecs_anywhere hw (o.pos + (q.dosBytes strip lf ++ (hdr ++ bound)).length)
  obtain ⟨o', h1, h2, h3⟩ := rebuildPeO_parts (md := md) hc hr hh hd hbd hw' hb hs
  exact ⟨_, data, data', o', hf, hw, hw', h1, h2, h3⟩

/-! ### Exceptions -/

theorem placeSecs_contains (fa sa rva ptr : Nat) (l : List Sec) :
    ((placeSecs fa ptr l).any fun s => s.containsRva sa rva) = l.any fun s => s.containsRva sa rva := by
  induction l generalizing ptr with
  | nil => rfl
  | cons s l ih =>
    unfold placeSecs
    split
    · rw [List.any_cons, List.any_cons, ih]; rfl
    · rw [List.any_cons, List.any_cons, ih]

theorem sectionFromRva_any {p : Image} {rva : Nat} : (∃ s, p.sectionFromRva rva = .ok s) ↔
    (p.secs.any fun s => s.containsRva p.nt.secAlign rva) = true := by
  unfold Image.sectionFromRva
  cases h : p.secs.find? fun s => s.containsRva p.nt.secAlign rva with
  | none =>
    rw [List.find?_eq_none] at h
    simp only [throwE, reduceCtorEq, exists_false, List.any_eq_true, false_iff]
    exact fun ⟨s, hs, hc⟩ => h s hs hc
  | some s =>
    simp only [Except.ok.injEq, exists_eq', List.any_eq_true, true_iff]
    exact ⟨s, List.mem_of_find?_eq_some h, List.find?_some (p := fun s : Sec => s.containsRva p.nt.secAlign rva) h⟩

theorem finishHeaders_keeps (p : Image) (nt : NtHdr) (ptr : Nat) :
    (p.finishHeaders nt ptr).hdrData = p.hdrData ∧ (p.finishHeaders nt ptr).nt.secAlign = nt.secAlign ∧
    (p.finishHeaders nt ptr).nt.numRva = nt.numRva ∧ (p.finishHeaders nt ptr).secs = placeSecs nt.fileAlign ptr p.secs ∧
    (p.finishHeaders nt ptr).nt.dirs = nt.dirs := by
  unfold Image.finishHeaders Image.updateImageSize
  dsimp only
  split <;> exact ⟨rfl, rfl, rfl, rfl, rfl⟩

/-- What `rebuild_pe` for headers does not change. -/
theorem rebuildHeaders_keeps {p q : Image} {strip chg save : Bool} {lf : Nat} (h : p.rebuildHeaders strip chg save = .ok (q, lf)) :
    q.hdrData = p.hdrData ∧ q.nt.secAlign = p.nt.secAlign ∧ q.nt.numRva = p.nt.numRva ∧
    (∃ fa ptr, q.secs = placeSecs fa ptr p.secs) ∧
    ∃ w, p.boundWanted save = .ok w ∧ (w = false → q.nt.dirs = p.nt.dirs) := by
  unfold Image.rebuildHeaders at h
  dsimp only at h
  have hw : (p.stripDos strip).boundWanted save = p.boundWanted save := by
    unfold Image.boundWanted Image.hasDir Image.stripDos; cases strip <;> rfl
  have hsd : (p.stripDos strip).hdrData = p.hdrData ∧ (p.stripDos strip).nt.secAlign = p.nt.secAlign ∧
      (p.stripDos strip).nt.numRva = p.nt.numRva ∧ (p.stripDos strip).secs = p.secs ∧ (p.stripDos strip).nt.dirs = p.nt.dirs := by
    unfold Image.stripDos; cases strip <;> exact ⟨rfl, rfl, rfl, rfl, rfl⟩
  rw [hw] at h
  obtain ⟨w, hw, h⟩ := bind_ok_iff.mp h
  obtain ⟨⟨nt, ptr⟩, hp, h⟩ := bind_ok_iff.mp h
  obtain ⟨u, hu, h⟩ := bind_ok_iff.mp h
  injection h with h
  injection h with h1 h2
  have hn : nt.secAlign = p.nt.secAlign ∧ nt.numRva = p.nt.numRva ∧ (w = false → nt.dirs = p.nt.dirs) := by
    unfold NtHdr.placeBound at hp
    cases w
    · rw [if_neg (by simp)] at hp
      injection hp with hp
      injection hp with hp1 hp2
      rw [← hp1]
      exact ⟨hsd.2.1, hsd.2.2.1, fun _ => hsd.2.2.2.2⟩
    · rw [if_pos rfl] at hp
      obtain ⟨h', hset, hp⟩ := bind_ok_iff.mp hp
      obtain ⟨sz, hsz, hp⟩ := bind_ok_iff.mp hp
      injection hp with hp
      injection hp with hp1 hp2
      rw [← hp1]
      unfold NtHdr.setDirRva at hset
      split at hset
      · simp at hset
      · obtain ⟨d, hd, hset⟩ := bind_ok_iff.mp hset
        unfold NtHdr.dirSet at hset
        split at hset
        · cases hset; exact ⟨hsd.2.1, hsd.2.2.1, fun x => by cases x⟩
        · simp at hset
  rw [← h1]
  have hr : ∀ b x, (nt.resizeHeaders b x).secAlign = nt.secAlign ∧ (nt.resizeHeaders b x).numRva = nt.numRva ∧
      (nt.resizeHeaders b x).dirs = nt.dirs := by
    intro b x; unfold NtHdr.resizeHeaders; cases b <;> exact ⟨rfl, rfl, rfl⟩
  obtain ⟨f1, f2, f3, f4, f5⟩ := finishHeaders_keeps (p.stripDos strip) (nt.resizeHeaders chg (alignUp64 ptr nt.fileAlign)) (alignUp64 ptr nt.fileAlign)
  refine ⟨f1.trans hsd.1, ?_, ?_, ⟨_, _, f4.trans (by rw [hsd.2.2.2.1])⟩, w, hw, fun x => ?_⟩
  · exact f2.trans (((hr _ _).1).trans hn.1)
  · exact f3.trans (((hr _ _).2.1).trans hn.2.1)
  · exact f5.trans (((hr _ _).2.2).trans (hn.2.2 x))

theorem dirAt_noExn (h : NtHdr) (id : Nat) : NoExn (h.dirAt id) := by
  unfold NtHdr.dirAt
  split
  · exact NoExn.ok _
  · exact NoExn.ub _

theorem directoryExists_noExn (h : NtHdr) (id : Nat) : NoExn (h.directoryExists id) := by
  unfold NtHdr.directoryExists
  split
  · exact NoExn.bind (dirAt_noExn h id) fun _ _ => NoExn.ok _
  · exact NoExn.ok _

/-- After the check of the bound imports they can be found in the changed image. -/
theorem bound_found {p q : Image} {strip chg sb : Bool} {rva lf : Nat} {u : Unit} (hc : p.checkBound sb = .ok u) (hr : p.boundRva = .ok rva)
    (hh : p.rebuildHeaders strip chg (sb && !decide (rva ≠ 0 ∧ rva > p.nt.sizeHeaders)) = .ok (q, lf))
    (hw : q.boundWanted (sb && !decide (rva ≠ 0 ∧ rva > p.nt.sizeHeaders)) = .ok true) :
    (∃ b, q.ptrFromRva rva .raw true = .ok b) ∧ NoExn (q.nt.getDirSize dirBoundImport) := by
  obtain ⟨k1, k2, k3, ⟨fa, ptr, k4⟩, w, k5, k6⟩ := rebuildHeaders_keeps hh
  generalize hsv : (sb && !decide (rva ≠ 0 ∧ rva > p.nt.sizeHeaders)) = save at *
  cases save
  · cases hw
  have hsb : sb = true := by cases sb <;> simp_all
  subst hsb
  have hex : ∀ x, x = false → w = x → False := by
    intro x hx hwx
    have hd := k6 (hwx.trans hx)
    have : q.boundWanted true = p.boundWanted true := by
      unfold Image.boundWanted Image.hasDir NtHdr.directoryExists NtHdr.dirAt
      rw [hd, k3]
    rw [this, k5, hwx, hx] at hw
    cases hw
  have hwt : w = true := by
    cases w
    · exact (hex false rfl rfl).elim
    · rfl
  rw [hwt] at k5
  unfold Image.checkBound at hc
  rw [k5, ok_bind, if_pos rfl] at hc
  obtain ⟨rva', hrva', hc⟩ := bind_ok_iff.mp hc
  obtain ⟨n, hn, hc⟩ := bind_ok_iff.mp hc
  unfold Image.boundRva at hr
  have hhas : p.hasDir dirBoundImport = .ok true := by unfold Image.boundWanted at k5; rw [if_pos rfl] at k5; exact k5
  rw [hhas, ok_bind, if_pos rfl, hrva'] at hr
  injection hr with hr
  subst hr
  constructor
  · unfold Image.ptrFromRva
    rw [k1]
    by_cases hlt : rva' < p.hdrData.length
    · rw [if_pos ⟨rfl, hlt⟩]; exact ⟨_, rfl⟩
    · rw [if_neg (fun x => hlt x.2)]
      unfold Image.dataLenFrom at hn
      rw [if_neg (fun x => hlt x.2.1)] at hn
      obtain ⟨s, hs, hn⟩ := bind_ok_iff.mp hn
      have := sectionFromRva_any.mp ⟨s, hs⟩
      rw [← placeSecs_contains fa p.nt.secAlign rva' ptr, ← k4, ← k2] at this
      obtain ⟨t, ht⟩ := sectionFromRva_any.mpr this
      rw [ht, ok_bind]
      exact ⟨_, rfl⟩
  · unfold NtHdr.getDirRva at hrva'
    unfold NtHdr.getDirSize
    rw [k3]
    split at hrva'
    · simp at hrva'
    · next hle =>
      rw [if_neg hle]
      exact NoExn.bind (dirAt_noExn _ _) fun _ _ => NoExn.ok _

/-- The operation does not throw. -/
def OCalm {α : Type} (m : OM α) : Prop := ∀ x, NoExn (m x).1

theorem OCalm.pure {α : Type} (a : α) : OCalm (Pure.pure a : OM α) := fun _ => NoExn.ok a
theorem OCalm.lift {α : Type} {r : Res α} (h : NoExn r) : OCalm (OM.lift r) := fun _ => h
theorem OCalm.out : OCalm OM.out := fun x => NoExn.ok x.2
theorem OCalm.bind {α β : Type} {m : OM α} {g : α → OM β} (hm : OCalm m) (hg : ∀ a, OCalm (g a)) : OCalm (m >>= g) := by
  intro x
  have h := hm x
  rcases hx : m x with ⟨e | a, y⟩
  · rw [orun_error hx]; rw [hx] at h
    intro e' he
    exact h e' (by cases he; rfl)
  · rw [orun_ok hx]; exact hg a y
theorem OCalm.write {md : Medium} {r : Res Bytes} (h : NoExn r) : OCalm (OM.write md r) := by
  intro x
  unfold OM.write
  split
  · cases r with
    | ok b => exact NoExn.ok ()
    | error e => intro e' he; exact h e' (by cases he; rfl)
  · exact NoExn.ok ()
theorem OCalm.zeros (md : Medium) (n : Nat) : OCalm (putZerosO md n) := by
  induction n with
  | zero => exact OCalm.pure ()
  | succ n ih => exact OCalm.bind (OCalm.write (NoExn.ok _)) fun _ => ih
theorem OCalm.stub (md : Medium) (b : Bytes) : OCalm (putStubO md b) := by
  unfold putStubO
  split
  · exact OCalm.pure ()
  · exact OCalm.bind (OCalm.write (NoExn.ok _)) fun _ => OCalm.zeros md _
theorem OCalm.headers (md : Medium) (l : List Sec) : OCalm (putHeadersO md l) := by
  induction l with
  | nil => exact OCalm.pure ()
  | cons s l ih => exact OCalm.bind (OCalm.write (NoExn.ok _)) fun _ => ih
theorem OCalm.secs (md : Medium) (l : List Sec) : OCalm (putSecsO md l) := by
  induction l with
  | nil => exact OCalm.pure ()
  | cons s l ih =>
    refine OCalm.bind OCalm.out fun o => OCalm.bind ?_ fun _ => OCalm.bind (OCalm.write (readN_noExn _ _ _)) fun _ => ih
    unfold fillToO
    split
    · exact OCalm.lift (NoExn.ub _)
    · exact OCalm.zeros md _
theorem boundWanted_noExn (q : Image) (b : Bool) : NoExn (q.boundWanted b) := by
  unfold Image.boundWanted
  split
  · exact directoryExists_noExn _ _
  · exact NoExn.ok _
theorem ntBytes_noExn (q : Image) : NoExn q.ntBytes := by
  unfold Image.ntBytes
  split
  · exact NoExn.ub _
  · exact NoExn.ok _

theorem putFileO_calm {md : Medium} {q : Image} {strip save : Bool} {lf rva : Nat}
    (h : q.boundWanted save = .ok true → (∃ b, q.ptrFromRva rva .raw true = .ok b) ∧ NoExn (q.nt.getDirSize dirBoundImport)) :
    OCalm (putFileO md q strip lf save rva) := by
  refine OCalm.bind (OCalm.write (NoExn.ok _)) fun _ => OCalm.bind (OCalm.stub md _) fun _ => OCalm.bind (OCalm.write (ntBytes_noExn q)) fun _ =>
    OCalm.bind (OCalm.headers md _) fun _ => OCalm.bind ?_ fun _ => OCalm.secs md _
  unfold putBoundO
  intro x
  cases hw : q.boundWanted save with
  | error e =>
    rw [orun_liftE rfl]
    have := boundWanted_noExn q save
    rw [hw] at this
    intro e' he; exact this e' (by cases he; rfl)
  | ok w =>
    rw [orun_lift rfl]
    cases w
    · exact NoExn.ok ()
    · rw [if_pos rfl]
      obtain ⟨⟨b, hb⟩, hs⟩ := h hw
      unfold putDirO
      rw [orun_lift hb]
      exact OCalm.bind (OCalm.lift hs) (fun _ => OCalm.write (readN_noExn _ _ _)) x

theorem boundBytes_noExn {q : Image} {save : Bool} {rva : Nat}
    (h : q.boundWanted save = .ok true → (∃ b, q.ptrFromRva rva .raw true = .ok b) ∧ NoExn (q.nt.getDirSize dirBoundImport)) :
    NoExn (q.boundBytes save rva) := by
  unfold Image.boundBytes
  refine NoExn.bind (boundWanted_noExn q save) fun w hw => ?_
  cases w
  · exact NoExn.ok _
  · obtain ⟨⟨b, hb⟩, hs⟩ := h hw
    rw [if_pos rfl, hb, ok_bind]
    exact NoExn.bind hs fun _ _ => readN_noExn _ _ _

theorem res_cases {α : Type} (r : Res α) : (∃ a, r = .ok a) ∨ ∃ e, r = .error e := by
  cases r with
  | ok a => exact Or.inl ⟨a, rfl⟩
  | error e => exact Or.inr ⟨e, rfl⟩

/-- Streams and exceptions: nothing has been written, and the image is as without stream. -/
theorem rebuildPeO_exn (md : Medium) (p : Image) (strip chg sb : Bool) (o : OStream) (hb : o.bad = false) (e : Err) :
    ((rebuildPeO md strip chg sb (p, o)).1 = throwE e ↔ (rebuildPeM strip chg sb p).1 = throwE e) ∧
    ((rebuildPeO md strip chg sb (p, o)).1 = throwE e →
      (rebuildPeO md strip chg sb (p, o)).2.1 = (rebuildPeM strip chg sb p).2 ∧
      (rebuildPeO md strip chg sb (p, o)).2.2.data = o.data ∧ (rebuildPeO md strip chg sb (p, o)).2.2.pos = o.pos) := by
  unfold rebuildPeO rebuildPeM
  rw [orun_ok (show OM.out (p, o) = (.ok o, p, o) from rfl), orun_lift (throwIf_neg (by rw [hb]; simp)),
    orun_ok (show OM.image (p, o) = (.ok p, p, o) from rfl), run_image]
  rcases res_cases (p.checkBound sb) with ⟨u, hc⟩ | ⟨x, hc⟩
  rotate_left
  · rw [orun_liftE hc, run_lift_error hc]
    exact ⟨⟨fun h => by cases h; rfl, fun h => by cases h; rfl⟩, fun _ => ⟨rfl, rfl, rfl⟩⟩
  rw [orun_lift hc, run_lift_ok hc, orun_ok (show OM.modify OStream.fresh (p, o) = (.ok (), p, o.fresh) from rfl)]
  rcases res_cases p.boundRva with ⟨rva, hr⟩ | ⟨x, hr⟩
  rotate_left
  · rw [orun_liftE hr, run_lift_error hr]
    exact ⟨⟨fun h => by cases h; rfl, fun h => by cases h; rfl⟩, fun _ => ⟨rfl, rfl, rfl⟩⟩
  rw [orun_lift hr, run_lift_ok hr]
  have hmr := rebuildHeadersM_result strip chg (sb && !decide (rva ≠ 0 ∧ rva > p.nt.sizeHeaders)) p
  rcases hm : rebuildHeadersM strip chg (sb && !decide (rva ≠ 0 ∧ rva > p.nt.sizeHeaders)) p with ⟨x | lf, q⟩
  · rw [run_bind_error hm, orun_error (show OM.ofImage (rebuildHeadersM strip chg (sb && !decide (rva ≠ 0 ∧ rva > p.nt.sizeHeaders)))
      (p, o.fresh) = (.error x, q, o.fresh) by unfold OM.ofImage; rw [hm])]
    exact ⟨⟨fun h => by cases h; rfl, fun h => by cases h; rfl⟩, fun _ => ⟨rfl, rfl, rfl⟩⟩
  · rw [run_bind_ok hm, orun_ok (show OM.ofImage (rebuildHeadersM strip chg (sb && !decide (rva ≠ 0 ∧ rva > p.nt.sizeHeaders)))
      (p, o.fresh) = (.ok lf, q, o.fresh) by unfold OM.ofImage; rw [hm]), run_image,
      orun_ok (show OM.image (q, o.fresh) = (.ok q, q, o.fresh) from rfl)]
    have hh : p.rebuildHeaders strip chg (sb && !decide (rva ≠ 0 ∧ rva > p.nt.sizeHeaders)) = .ok (q, lf) :=
      hmr.symm.trans (result_ok_iff.2 hm)
    have hf := bound_found hc hr hh
    have n1 := putFileO_calm (md := md) (strip := strip) (lf := lf) hf (q, o.fresh) e
    have n2 : Calm (IM.lift q.headerBytes >>= fun hdr => IM.lift (q.boundBytes (sb && !decide (rva ≠ 0 ∧ rva > p.nt.sizeHeaders)) rva) >>= fun bound =>
        IM.lift (writeSecs (q.dosBytes strip lf ++ (hdr ++ bound)).length q.secs) >>= fun data =>
        (Pure.pure (q.dosBytes strip lf ++ (hdr ++ bound) ++ data) : IM Bytes)) q :=
      Calm.bind (Calm.lift (headerBytes_noExn _)) fun hdr q' _ => Calm.bind (Calm.lift (boundBytes_noExn hf)) fun bound q'' _ =>
        Calm.bind (Calm.lift (writeSecs_noExn _ _)) fun _ _ _ => Calm.pure _ _
    exact ⟨⟨fun h => absurd h n1, fun h => absurd h (n2 e)⟩, fun h => absurd h n1⟩

theorem rebuildPeO_bad (md : Medium) (p : Image) (strip chg sb : Bool) (o : OStream) (hb : o.bad = true) :
    rebuildPeO md strip chg sb (p, o) = (throwE .streamIsBad, p, o) := by
  unfold rebuildPeO
  rw [orun_ok (show OM.out (p, o) = (.ok o, p, o) from rfl), orun_liftE (throwIf_pos hb)]
  rfl

/-! ### The image after an exception -/

theorem setDirRva_form {h h' : NtHdr} {id v : Nat} (hs : h.setDirRva id v = .ok h') :
    ∃ size, h' = { h with dirs := h.dirs.set id (v, size) } ∧ ¬ h.numRva ≤ id := by
  unfold NtHdr.setDirRva at hs
  split at hs
  · simp at hs
  · next hn =>
    obtain ⟨d, hd, hs⟩ := bind_ok_iff.mp hs
    unfold NtHdr.dirSet at hs
    split at hs
    · cases hs; exact ⟨d.2, rfl, hn⟩
    · simp at hs

theorem rebuildHeadersM_left {p : Image} {strip chg save : Bool} {e : Err} (he : (rebuildHeadersM strip chg save p).1 = throwE e) :
    (rebuildHeadersM strip chg save p).2 = p.stripDos strip ∨
    (save = true ∧ e = .cannotRebuildImage ∧ ∃ d, (rebuildHeadersM strip chg save p).2 =
      { p.stripDos strip with nt := { (p.stripDos strip).nt with dirs := (p.stripDos strip).nt.dirs.set dirBoundImport d } }) := by
  unfold rebuildHeadersM at he ⊢
  rw [run_bind_ok (m := IM.modify _) rfl, run_image] at he ⊢
  cases hw : (p.stripDos strip).boundWanted save with
  | error x => rw [run_lift_error rfl]; exact Or.inl rfl
  | ok w =>
    rw [hw, run_lift_ok rfl] at he
    rw [run_lift_ok rfl]
    unfold placeBoundM at he ⊢
    cases w
    · rw [if_neg (by simp), run_bind_ok (m := (pure _ : IM Nat)) rfl, run_image] at he ⊢
      by_cases h : chg = true ∧ ((p.stripDos strip).secs.head?.any (fun s => decide (w32 (alignUp64 ((p.stripDos strip).tablePtr strip)
        (p.stripDos strip).nt.fileAlign) > s.va)) = true)
      · rw [run_lift_error (throwIf_pos h)]; exact Or.inl rfl
      · rw [run_lift_ok (throwIf_neg h)] at he
        cases he
    · have hsave : save = true := by
        cases save
        · cases hw
        · rfl
      rw [if_pos rfl, bind_assocM] at he ⊢
      cases hset : (p.stripDos strip).nt.setDirRva dirBoundImport (w32 ((p.stripDos strip).tablePtr strip)) with
      | error x =>
        left
        rw [run_bind_error (show (setDirM fun h => h.setDirRva dirBoundImport (w32 ((p.stripDos strip).tablePtr strip))) (p.stripDos strip) =
          (.error x, p.stripDos strip) by unfold setDirM; rw [run_image, run_lift_error hset])]
      | ok nt =>
        have hrun : (setDirM fun h => h.setDirRva dirBoundImport (w32 ((p.stripDos strip).tablePtr strip))) (p.stripDos strip) =
            (.ok (), { p.stripDos strip with nt := nt }) := by
          unfold setDirM; rw [run_image, run_lift_ok hset]; rfl
        obtain ⟨size, hnt, hnum⟩ := setDirRva_form hset
        have hform : ({ p.stripDos strip with nt := nt } : Image) =
            { p.stripDos strip with nt := { (p.stripDos strip).nt with dirs := ((p.stripDos strip).nt.dirs.set dirBoundImport (w32 ((p.stripDos strip).tablePtr strip), size)) } } := by rw [hnt]
        rw [run_bind_ok hrun, bind_assocM, run_image, bind_assocM] at he ⊢
        have hsz : NoExn (nt.getDirSize dirBoundImport) := by
          unfold NtHdr.getDirSize
          rw [if_neg (by rw [hnt]; exact hnum)]
          exact NoExn.bind (dirAt_noExn _ _) fun _ _ => NoExn.ok _
        rcases res_cases (nt.getDirSize dirBoundImport) with ⟨sz, hg⟩ | ⟨x, hg⟩
        rotate_left
        · rw [run_lift_error hg] at he
          exact absurd (hg.trans (by cases he; rfl)) (hsz e)
        · rw [run_lift_ok hg, run_bind_ok (m := (pure _ : IM Nat)) rfl, run_image] at he ⊢
          right
          refine ⟨hsave, ?_⟩
          by_cases h : chg = true ∧ ((p.stripDos strip).secs.head?.any (fun s => decide (w32 (alignUp64 (w64 ((p.stripDos strip).tablePtr strip + sz))
            nt.fileAlign) > s.va)) = true)
          · rw [run_lift_error (throwIf_pos h)] at he ⊢
            exact ⟨by cases he; rfl, _, hform⟩
          · rw [run_lift_ok (throwIf_neg h)] at he
            cases he

theorem rebuildPeM_left {p : Image} {strip chg sb : Bool} {e : Err} (he : (rebuildPeM strip chg sb p).1 = throwE e) :
    (rebuildPeM strip chg sb p).2 = p ∨ (rebuildPeM strip chg sb p).2 = p.stripDos strip ∨
    (sb = true ∧ e = .cannotRebuildImage ∧ ∃ d, (rebuildPeM strip chg sb p).2 =
      { p.stripDos strip with nt := { (p.stripDos strip).nt with dirs := (p.stripDos strip).nt.dirs.set dirBoundImport d } }) := by
  unfold rebuildPeM at he ⊢
  rw [run_image] at he ⊢
  rcases res_cases (p.checkBound sb) with ⟨u, hc⟩ | ⟨x, hc⟩
  rotate_left
  · rw [run_lift_error hc]; exact Or.inl rfl
  rw [run_lift_ok hc] at he ⊢
  rcases res_cases p.boundRva with ⟨rva, hr⟩ | ⟨x, hr⟩
  rotate_left
  · rw [run_lift_error hr]; exact Or.inl rfl
  rw [run_lift_ok hr] at he ⊢
  rcases hm : rebuildHeadersM strip chg (sb && !decide (rva ≠ 0 ∧ rva > p.nt.sizeHeaders)) p with ⟨x | lf, q⟩
  · rw [run_bind_error hm] at he ⊢
    have := rebuildHeadersM_left (p := p) (strip := strip) (chg := chg) (save := sb && !decide (rva ≠ 0 ∧ rva > p.nt.sizeHeaders)) (e := e)
      (by rw [hm]; cases he; rfl)
    rw [hm] at this
    rcases this with h | ⟨h1, h2, h3⟩
    · exact Or.inr (Or.inl h)
    · exact Or.inr (Or.inr ⟨(Bool.and_eq_true _ _ ▸ h1).1, h2, h3⟩)
  · exfalso
    have hh : p.rebuildHeaders strip chg (sb && !decide (rva ≠ 0 ∧ rva > p.nt.sizeHeaders)) = .ok (q, lf) :=
      (rebuildHeadersM_result strip chg (sb && !decide (rva ≠ 0 ∧ rva > p.nt.sizeHeaders)) p).symm.trans (result_ok_iff.2 hm)
    rw [run_bind_ok hm, run_image] at he
    revert he
    refine Calm.bind (Calm.lift (headerBytes_noExn _)) (fun hdr q' _ => ?_) e
    refine Calm.bind (Calm.lift (boundBytes_noExn (bound_found hc hr hh))) fun bound q'' _ => ?_
    exact Calm.bind (Calm.lift (writeSecs_noExn _ _)) fun _ _ _ => Calm.pure _ _

end PE
