/-
C45: writing the load configuration without its tables.
-/
import Verif.Props.LoadConfig

namespace PE

/-- The `n` bytes at the address `va` are raw data of a section other than number `i`. -/
def Elsewhere (p : Image) (i va n : Nat) : Prop :=
  ∃ (j : Nat) (t : Sec) (o : Nat), j ≠ i ∧ Host p j t ∧ va = p.nt.imageBase + t.va + o ∧ o + n ≤ t.data.length ∧
    va + n ≤ 256 ^ p.kind.ptr

/-- A rebuilder leaves the other sections good places for data. -/
theorem RebuiltIn.other {p q : Image} {i lo len id : Nat} {s : Sec} {dir : Nat × Nat}
    (h : RebuiltIn p q i s lo len id dir) {j : Nat} {t : Sec} (hj : j ≠ i) (ht : Host p j t) : Host q j t where
  valid := h.valid
  sec := by rw [h.others j hj]; exact ht.sec
  hdr := by rw [h.hdr]; exact ht.hdr
  pos := ht.pos
  data := by rw [h.nt]; exact ht.data
  raw := by rw [h.nt]; exact ht.raw

theorem Host.rawWindow {p : Image} {j : Nat} {t : Sec} (h : Host p j t) : RawWindow p t.va t.data :=
  rawWindow_of h.window h.hdr (t.data_le _)

theorem readVaInt_elsewhere {p q : Image} {i lo len id : Nat} {s : Sec} {dir : Nat × Nat}
    (h : RebuiltIn p q i s lo len id dir) (hb : p.nt.imageBase + 2 ^ 32 ≤ 2 ^ 64) {va m : Nat} (he : Elsewhere p i va m)
    {k n : Nat} (hn : 0 < n) (hk : k + n ≤ m) :
    q.readVaInt n ((va + k) % 256 ^ p.kind.ptr) = p.readVaInt n ((va + k) % 256 ^ p.kind.ptr) := by
  obtain ⟨j, t, o, hj, ht, rfl, ho, hw⟩ := he
  have htq := h.other hj ht
  have hf := ht.window.fin
  have hl := t.data_le p.nt.secAlign
  have hqb : q.nt.imageBase = p.nt.imageBase := by rw [h.nt]
  rw [Nat.mod_eq_of_lt (by omega)]
  unfold Image.readVaInt Image.readInt
  have e1 : p.vaToRva (p.nt.imageBase + t.va + o + k) = .ok (t.va + (o + k)) := by
    rw [show p.nt.imageBase + t.va + o + k = p.nt.imageBase + (t.va + (o + k)) by omega]
    exact vaToRva_ok (by omega) hb
  have e2 : q.vaToRva (p.nt.imageBase + t.va + o + k) = .ok (t.va + (o + k)) := by
    rw [show p.nt.imageBase + t.va + o + k = q.nt.imageBase + (t.va + (o + k)) by rw [hqb]; omega]
    exact vaToRva_ok (by omega) (by rw [hqb]; exact hb)
  rw [e1, e2, ok_bind, ok_bind, ht.rawWindow.readT false (o + k) n (by omega) (by omega),
    htq.rawWindow.readT false (o + k) n (by omega) (by omega)]

theorem seLoop_same {p q : Image} (hk : q.kind = p.kind) (table : Nat) (n i : Nat)
    (h : ∀ k, i ≤ k → k < i + n → q.readVaInt 4 ((table + k * 4) % 256 ^ p.kind.ptr) = p.readVaInt 4 ((table + k * 4) % 256 ^ p.kind.ptr)) :
    q.seLoop table i n = p.seLoop table i n := by
  induction n generalizing i with
  | zero => rfl
  | succ n ih =>
    unfold Image.seLoop
    rw [hk, h i (Nat.le_refl _) (by omega), ih (i + 1) (fun k h1 h2 => h k (by omega) (by omega))]

theorem lockLoop_same {p q : Image} (hk : q.kind = p.kind) (hva : ∀ va, q.vaToRva va = p.vaToRva va) (table fuel : Nat)
    (cur : Nat) (ls : List Nat)
    (h : ∀ k, cur ≤ k → k < cur + (ls.length + 1) → q.readVaInt p.kind.ptr ((table + k * p.kind.ptr) % 256 ^ p.kind.ptr) =
      p.readVaInt p.kind.ptr ((table + k * p.kind.ptr) % 256 ^ p.kind.ptr))
    (hl : p.lockLoop table fuel cur = .ok ls) : q.lockLoop table fuel cur = .ok ls := by
  induction fuel generalizing cur ls with
  | zero => cases hl
  | succ fuel ih =>
    unfold Image.lockLoop at hl ⊢
    rw [hk, h cur (Nat.le_refl _) (by omega)]
    rw [bind_ok_iff] at hl ⊢
    obtain ⟨va, h1, h2⟩ := hl
    refine ⟨va, h1, ?_⟩
    by_cases hz : va = 0
    · rw [if_pos hz] at h2 ⊢; exact h2
    · rw [if_neg hz] at h2 ⊢
      rw [hva]
      rw [bind_ok_iff] at h2 ⊢
      obtain ⟨rva, h3, h4⟩ := h2
      refine ⟨rva, h3, ?_⟩
      rw [bind_ok_iff] at h4 ⊢
      obtain ⟨l', h5, h6⟩ := h4
      have e : rva :: l' = ls := Except.ok.inj h6
      subst e
      exact ⟨l', ih (cur + 1) l' (fun k g1 g2 => h k (by omega) (by simp only [List.length_cons]; omega)) h5, rfl⟩

theorem seLoop_length {p : Image} (table : Nat) (n i : Nat) (hs : List Nat) (h : p.seLoop table i n = .ok hs) : hs.length = n := by
  induction n generalizing i hs with
  | zero => cases h; rfl
  | succ n ih =>
    unfold Image.seLoop at h
    obtain ⟨a, -, h⟩ := bind_ok_iff.mp h
    obtain ⟨r, hr, h⟩ := bind_ok_iff.mp h
    cases h
    rw [List.length_cons, ih _ _ hr]

/-- What the reader has looked at when it returned `c`. -/
theorem getConfig_parts {p : Image} {c : ConfigInfo} (h : p.getConfig = .ok c) :
    c.seCount < 4294967295 / 4 ∧ c.seTable + c.seCount * 4 + 1 < 256 ^ p.kind.ptr ∧ c.lockTable < 256 ^ p.kind.ptr ∧
      p.seLoop c.seTable 0 c.seCount = .ok c.handlers ∧ p.lockPrefixes c.lockTable = .ok c.locks ∧
      c.handlers.length = c.seCount := by
  unfold Image.getConfig at h
  obtain ⟨b1, g1, h⟩ := bind_ok_iff.mp h
  obtain ⟨b2, g2, h⟩ := bind_ok_iff.mp h
  obtain ⟨rva, g3, h⟩ := bind_ok_iff.mp h
  obtain ⟨b, g4, h⟩ := bind_ok_iff.mp h
  obtain ⟨b5, g5, h⟩ := bind_ok_iff.mp h
  obtain ⟨b6, g6, h⟩ := bind_ok_iff.mp h
  obtain ⟨hs, g7, h⟩ := bind_ok_iff.mp h
  obtain ⟨ls, g8, h⟩ := bind_ok_iff.mp h
  have hlt : (ConfigInfo.ofBytes p.kind b).lockTable < 256 ^ p.kind.ptr := by
    cases p.kind <;> exact rd_lt _ _ _
  have hg : ¬((ConfigInfo.ofBytes p.kind b).seCount ≥ 4294967295 / 4 ∨
      (ConfigInfo.ofBytes p.kind b).seTable ≥ 256 ^ p.kind.ptr - 1 - (ConfigInfo.ofBytes p.kind b).seCount * 4) := by
    intro hc
    unfold throwIf at g6
    rw [if_pos hc] at g6
    cases g6
  have e := Except.ok.inj h
  subst e
  exact ⟨by dsimp only; omega, by dsimp only; omega, hlt, g7, g8, seLoop_length _ _ _ _ g7⟩

set_option maxHeartbeats 1000000 in
/-- C45: with both flags `false`, `rebuild_image_config` writes the structure alone, with the addresses of the tables that
    the object holds (truncated to the width of an address). When these are the addresses of the tables that the image
    had, and the structure goes to another section than the tables, reading returns the given fields with the old
    handlers (in the order of the table, not sorted) and the old lock prefixes. -/
theorem C45_tables_kept (p : Image) (i off : Nat) (s : Sec) (c0 c : ConfigInfo) (strip : Bool)
    (hh : Host p i s) (hdirs : p.nt.DirsOk) (hnum : dirLoadConfig < p.nt.numRva) (hfit : c.Fits p.kind.ptr)
    (hoff : off < 2 ^ 32 - 8) (start : Nat) (hstart : start = ceilTo off p.kind.ptr)
    (hroom : HostRoom p i s (start + p.kind.sizeofConfig)) (hb64 : p.nt.imageBase + 2 ^ 32 ≤ 2 ^ 64)
    (hold : p.getConfig = .ok c0)
    (hse : c.seTable % 256 ^ p.kind.ptr = c0.seTable) (hlock : c.lockTable % 256 ^ p.kind.ptr = c0.lockTable)
    (hcount : c.handlers.length = c0.handlers.length)
    (hse' : c0.handlers = [] ∨ Elsewhere p i c0.seTable (4 * c0.handlers.length))
    (hlock' : c0.lockTable = 0 ∨ Elsewhere p i c0.lockTable (p.kind.ptr * (c0.locks.length + 1))) :
    ∃ q, p.rebuildConfig c i off false false true strip = .ok (q, (s.va + start, p.kind.sizeofConfig)) ∧
      RebuiltIn p q i s start p.kind.sizeofConfig dirLoadConfig (s.va + start, p.kind.sizeofConfig) ∧
      q.getConfig = .ok { c with
        handlers := c0.handlers
        locks := c0.locks
        seCount := c0.seCount
        seTable := c0.seTable
        lockTable := c0.lockTable } := by
  obtain ⟨o1, o2, o3, o4, o5, o6⟩ := getConfig_parts hold
  have hpc := p.kind.ptr_cases
  have hs1 : off ≤ start := by rw [hstart]; exact ceilTo_ge (by omega)
  have hs2 : start < off + 8 := by
    rw [hstart]; have := ceilTo_lt (x := off) (a := p.kind.ptr) (by omega); omega
  have hau : alignUp off p.kind.ptr = start := by
    rw [hstart] at hs2 ⊢; exact alignUp_of_le p.kind.ptr_pow2 (by omega) (by omega)
  obtain ⟨hl1, hl2⟩ := hroom.lt hh
  have hsz : p.kind.sizeofConfig = 72 ∨ p.kind.sizeofConfig = 112 := by cases p.kind <;> simp [Kind.sizeofConfig]
  generalize hS : p.kind.sizeofConfig = S at *
  have hpos : w32 (off + sub32 (alignUp off p.kind.ptr) off) = start := by
    rw [hau, sub32_of_le hs1 (by omega), w32, Nat.mod_eq_of_lt (by omega)]; omega
  have hneed : w32 (w32 (w32 (S + 0) + 0) + start) = start + S := by
    simp only [w32]
    rw [Nat.mod_eq_of_lt (a := S + 0) (by omega), Nat.mod_eq_of_lt (a := S + 0 + 0) (by omega), Nat.mod_eq_of_lt (by omega)]
    omega
  have hsizes : configSizes p.kind c false false = (0, 0) := rfl
  have hg := growTo_ge s.data (start + S)
  generalize hc' : ({ c with seTable := c0.seTable, lockTable := c0.lockTable, seCount := c.handlers.length } : ConfigInfo) = c'
  generalize hE : encFields (configFields p.kind c') = e
  have hcl : e.length = S := by rw [← hE, configFields_length, hS]
  have hin : ∀ f ∈ configFields p.kind c', f.2 < 256 ^ f.1 := by
    have hp : 2 ^ 32 ≤ 256 ^ p.kind.ptr := by
      rcases hpc with h | h <;> rw [h] <;> decide
    refine configFields_inRange ?_ ?_ ?_ ?_
    · rw [← hc']; exact ⟨hfit.dwords, hfit.words, hfit.wide, hfit.handlers⟩
    · rw [← hc']; exact o3
    · rw [← hc']; show c0.seTable < _; omega
    · rw [← hc']; show c.handlers.length < _; omega
  obtain ⟨hdec, hsize⟩ := ConfigInfo.ofBytes_enc p.kind c' hin
  rw [hE] at hdec hsize
  obtain ⟨q, hq, hw⟩ := finishDir_written (e := e) (pos := start) strip (s.va + start, S) hh hdirs hnum (by omega)
    (by omega) hroom
  have hpos' := hh.pos
  have hreb : RebuiltIn p q i s start S dirLoadConfig (s.va + start, S) := by
    have := hw.rebuilt
    rwa [hcl] at this
  refine ⟨q, ?_, hreb, ?_⟩
  · unfold Image.rebuildConfig
    rw [hh.sec]
    dsimp only
    rw [hS, hpos, hsizes]
    dsimp only
    rw [hneed, hroom.check hh, ok_bind]
    have t1 : ∀ a, p.tableVa false c.handlers s.va a c.seTable = .ok c0.seTable := by
      intro a
      unfold Image.tableVa
      rw [if_neg (by decide), hse]
    have t2 : ∀ a, p.tableVa false c.locks s.va a c.lockTable = .ok c0.lockTable := by
      intro a
      unfold Image.tableVa
      rw [if_neg (by decide), hlock]
    rw [t1, ok_bind, t2, ok_bind, hc', hE, writeAt_ok (by omega), ok_bind, if_neg (by decide)]
    unfold writeVals
    rw [ok_bind, if_neg (by simp), ok_bind]
    rw [show w32 (s.va + start) = s.va + start by rw [w32, Nat.mod_eq_of_lt (by omega)]]
    exact hq
  · obtain ⟨-, L', -, -, -, hsh⟩ := hw.shown hh (by omega) (by omega)
    have hr := hsh false (by simp)
    have hqk : q.kind = p.kind := hr.kind
    have hqb : q.nt.imageBase = p.nt.imageBase := hr.base
    obtain ⟨m, t, hwin, htl, -, hat, -⟩ := hr.window
    have hale := hat.le
    unfold Image.getConfig
    rw [hr.has, ok_bind]
    rw [show decide ((s.va + start, S).1 ≠ 0) = true by simp; omega, throwIf_neg (by simp), ok_bind]
    rw [hr.rva, ok_bind, hqk, hS]
    have h0 : q.readT S (s.va + start) .virt false = .ok e := by
      have hsl := hat.2
      rw [hcl] at hsl
      rw [hwin.readT false start S (by omega) (by omega), hsl]
    rw [h0, ok_bind, hsize, throwIf_neg (by rw [hS]; omega), ok_bind, hdec]
    dsimp only
    have e1 : c'.seCount = c0.seCount := by rw [← hc']; show c.handlers.length = _; omega
    have e2 : c'.seTable = c0.seTable := by rw [← hc']
    have e3 : c'.lockTable = c0.lockTable := by rw [← hc']
    rw [e1, e2, e3, throwIf_neg (by omega), ok_bind]
    have hse2 : q.seLoop c0.seTable 0 c0.seCount = .ok c0.handlers := by
      rw [seLoop_same hqk, o4]
      intro k _ hk
      rcases hse' with h | h
      · rw [h] at o6; simp at o6; omega
      · exact readVaInt_elsewhere hreb hb64 h (by omega) (by omega)
    have hva : ∀ va, q.vaToRva va = p.vaToRva va := by
      intro va
      unfold Image.vaToRva Image.vaToRva32 Image.vaToRva64
      rw [hqk, hqb]
    have hlk2 : q.lockPrefixes c0.lockTable = .ok c0.locks := by
      unfold Image.lockPrefixes at o5 ⊢
      generalize 4294967296 = fuel at o5 ⊢
      by_cases hz : c0.lockTable = 0
      · rw [if_neg (by simpa using hz)] at o5 ⊢; exact o5
      · rw [if_pos hz] at o5 ⊢
        refine lockLoop_same hqk hva _ _ _ _ ?_ o5
        intro k _ hk
        rcases hlock' with h | h
        · exact absurd h hz
        · refine readVaInt_elsewhere hreb hb64 h (by omega) ?_
          have : (k + 1) * p.kind.ptr ≤ (c0.locks.length + 1) * p.kind.ptr := Nat.mul_le_mul_right _ (by omega)
          rw [Nat.mul_comm p.kind.ptr]
          rw [Nat.succ_mul] at this
          exact this
    rw [hse2, ok_bind, hlk2, ok_bind, ← hc']

/-- A configuration with another cookie, whose table addresses have rubbish above the 32 bits that PE32 keeps. -/
def keptConfig : ConfigInfo :=
  { demoConfig with cookie := 0x403000, seTable := 0x700000000 + (demoImage.nt.imageBase + 0x1048), lockTable := demoImage.nt.imageBase + 0x1054 }

/-- What the image in the example has before. -/
def keptOld : ConfigInfo :=
  { demoConfig with
    handlers := [0x1000, 0x1004, 0x1008]
    seCount := 3
    seTable := demoImage.nt.imageBase + 0x1048
    lockTable := demoImage.nt.imageBase + 0x1054 }

/-- C45_tables_kept applies: the configuration of the first section gets another cookie in the last section, and keeps its
    tables. -/
example : ∃ q0 q1 dir c1, demoImage.rebuildConfig demoConfig 0 0 true true true false = .ok (q0, dir) ∧
    q0.rebuildConfig keptConfig 1 18 false false true true = .ok (q1, (0x2014, 72)) ∧ q1.getConfig = .ok c1 ∧
    c1.cookie = 0x403000 ∧ c1.handlers = [0x1000, 0x1004, 0x1008] ∧ c1.locks = [0x1002, 0x1001] := by
  obtain ⟨q0, h1, h2, -⟩ := C45_round_trip_partial demoImage 0 0 _ demoConfig false demo_host_first
    ⟨rfl, by decide⟩ (by decide) demoConfig_fits (by decide) (Or.inl rfl) 0 _ (by decide) rfl (by decide) (by decide)
    (by decide) (by decide)
  obtain ⟨⟨q, dir⟩, g1, g2⟩ := exists_of_okAnd (x := demoImage.rebuildConfig demoConfig 0 0 true true true false)
    (f := fun r => decide (r.1.getConfig = .ok keptOld ∧
      r.1.secs[0]?.map (fun t => (t.va, decide (0x60 ≤ t.data.length))) = some (0x1000, true) ∧
      HostRoom r.1 1 (demoImage.secs[1]'(by decide)) (20 + 72))) (by decide +kernel)
  have hq : q0 = q := by
    rw [h1] at g1
    exact (Prod.mk.inj (Except.ok.inj g1)).1
  subst hq
  obtain ⟨k1, k2, k3⟩ := of_decide_eq_true g2
  obtain ⟨t, ht, -, -, -⟩ := h2.again
  dsimp only at k1 k2 k3
  rw [ht.sec] at k2
  simp only [Option.map_some, Option.some.injEq, Prod.mk.injEq, decide_eq_true_eq] at k2
  obtain ⟨k4, k5⟩ := k2
  have hk : q0.kind = .pe32 := h2.kind
  have hb : q0.nt.imageBase = demoImage.nt.imageBase := by rw [h2.nt]
  have hbase : demoImage.nt.imageBase = 0x400000 := by decide
  obtain ⟨q1, g3, -, g4⟩ := C45_tables_kept q0 1 18 _ _ keptConfig true (h2.other (by decide) demo_host_last)
    (by rw [h2.nt]; exact ⟨by decide, by decide⟩) (by rw [h2.nt]; decide) (by rw [hk]; constructor <;> simp [keptConfig, demoConfig, Kind.ptr])
    (by decide) 20 (by rw [hk]; decide) (by rw [hk]; exact k3) (by rw [hb]; decide) k1
    (by rw [hk]; decide) (by rw [hk]; decide) rfl
    (.inr ⟨0, t, 0x48, by decide, ht, by rw [hb, k4]; rfl, by show _ + 4 * 3 ≤ _; omega, by rw [hk]; decide⟩)
    (.inr ⟨0, t, 0x54, by decide, ht, by rw [hb, k4]; rfl, by rw [hk]; show _ + 4 * 3 ≤ _; omega, by rw [hk]; decide⟩)
  rw [hk] at g3
  exact ⟨q0, q1, _, _, h1, g3, g4, rfl, rfl, rfl⟩

end PE
