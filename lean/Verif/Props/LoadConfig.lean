/-
C45: the load configuration directory.
-/
import Verif.Lemmas.LoadConfig
import Verif.Props.Reloc
import Verif.Props.Exception
import Verif.Lemmas.Shown

namespace PE

/-- The values of a configuration fit into the fields of the structure; `w` is the size of an address. -/
structure ConfigInfo.Fits (c : ConfigInfo) (w : Nat) : Prop where
  dwords : c.timeStamp < 2 ^ 32 ∧ c.flagsClear < 2 ^ 32 ∧ c.flagsSet < 2 ^ 32 ∧ c.csTimeout < 2 ^ 32 ∧
    c.heapFlags < 2 ^ 32
  words : c.major < 2 ^ 16 ∧ c.minor < 2 ^ 16 ∧ c.csdVersion < 2 ^ 16
  wide : c.decommitFree < 256 ^ w ∧ c.decommitTotal < 256 ^ w ∧ c.maxAlloc < 256 ^ w ∧ c.vmThreshold < 256 ^ w ∧
    c.affinity < 256 ^ w ∧ c.editList < 256 ^ w ∧ c.cookie < 256 ^ w
  handlers : ∀ h ∈ c.handlers, h < 2 ^ 32

theorem configFields_inRange {k : Kind} {c : ConfigInfo} (h : c.Fits k.ptr) (h1 : c.lockTable < 256 ^ k.ptr)
    (h2 : c.seTable < 256 ^ k.ptr) (h3 : c.seCount < 256 ^ k.ptr) :
    ∀ f ∈ configFields k c, f.2 < 256 ^ f.1 := by
  obtain ⟨⟨d1, d2, d3, d4, d5⟩, ⟨w1, w2, w3⟩, ⟨x1, x2, x3, x4, x5, x6, x7⟩, -⟩ := h
  cases k
  · simp only [Kind.ptr] at *
    intro f hf
    simp only [configFields, List.mem_cons, List.not_mem_nil, or_false] at hf
    rcases hf with h | h | h | h | h | h | h | h | h | h | h | h | h | h | h | h | h | h | h | h <;> subst h <;>
      first | assumption | decide
  · simp only [Kind.ptr] at *
    intro f hf
    simp only [configFields, List.mem_cons, List.not_mem_nil, or_false] at hf
    rcases hf with h | h | h | h | h | h | h | h | h | h | h | h | h | h | h | h | h | h | h | h <;> subst h <;>
      first | assumption | decide

set_option maxHeartbeats 1000000 in
/-- What `rebuild_image_config` writes, and what it is for the reader. -/
theorem config_written (p : Image) (i off : Nat) (s : Sec) (c : ConfigInfo) (strip : Bool)
    (hh : Host p i s) (hdirs : p.nt.DirsOk) (hnum : dirLoadConfig < p.nt.numRva) (hfit : c.Fits p.kind.ptr)
    (hoff : off < 2 ^ 32 - 8) (hstrip : strip = false ∨ i + 1 = p.secs.length)
    (start N : Nat) (hstart : start = ceilTo off p.kind.ptr)
    (hN : N = start + p.kind.sizeofConfig + 4 * c.handlers.length + p.kind.ptr * (c.locks.length + 1))
    (hroom : HostRoom p i s N)
    (hbase : p.nt.imageBase + s.va + N < 256 ^ p.kind.ptr) (hb64 : p.nt.imageBase + 2 ^ 32 ≤ 2 ^ 64)
    (hlocks : ∀ r ∈ c.locks, r < 2 ^ 32 ∧ p.nt.imageBase + r < 256 ^ p.kind.ptr ∧ 0 < p.nt.imageBase + r) :
    ∃ q, p.rebuildConfig c i off true true true strip = .ok (q, (s.va + start, p.kind.sizeofConfig)) ∧
      RebuiltIn p q i s start (N - start) dirLoadConfig (s.va + start, p.kind.sizeofConfig) ∧
      Durable p q i s start (N - start) dirLoadConfig (s.va + start, p.kind.sizeofConfig) strip true (fun r =>
        ∃ hs : List Nat, hs.Perm c.handlers ∧ hs.Pairwise (· ≤ ·) ∧
        r.getConfig = .ok { c with
          handlers := hs
          seCount := c.handlers.length
          seTable := if c.handlers = [] then 0 else p.nt.imageBase + s.va + start + p.kind.sizeofConfig
          lockTable := if c.locks = [] then 0 else
            p.nt.imageBase + s.va + start + p.kind.sizeofConfig + 4 * c.handlers.length }) := by
  have hv := hh.valid
  have hpc := p.kind.ptr_cases
  have hs1 : off ≤ start := by rw [hstart]; exact ceilTo_ge (by omega)
  have hs2 : start < off + 8 := by
    rw [hstart]; have := ceilTo_lt (x := off) (a := p.kind.ptr) (by omega); omega
  have hau : alignUp off p.kind.ptr = start := by
    rw [hstart] at hs2 ⊢; exact alignUp_of_le p.kind.ptr_pow2 (by omega) (by omega)
  obtain ⟨hl1, hl2⟩ := hroom.lt hh
  have hsz : p.kind.sizeofConfig = 72 ∨ p.kind.sizeofConfig = 112 := by cases p.kind <;> simp [Kind.sizeofConfig]
  generalize hS : p.kind.sizeofConfig = S at *
  have hptr1 : c.locks.length + 1 ≤ p.kind.ptr * (c.locks.length + 1) := by
    have := Nat.mul_le_mul_right (c.locks.length + 1) (show 1 ≤ p.kind.ptr by omega)
    omega
  have hmulc : p.kind.ptr * (c.locks.length + 1) = (c.locks.length + 1) * p.kind.ptr := Nat.mul_comm _ _
  -- positions
  have hpos : w32 (off + sub32 (alignUp off p.kind.ptr) off) = start := by
    rw [hau, sub32_of_le hs1 (by omega), w32, Nat.mod_eq_of_lt (by omega)]; omega
  have hse : w32 (S + start) = start + S := by rw [w32, Nat.mod_eq_of_lt (by omega)]; omega
  have hsizes : configSizes p.kind c true true = (4 * c.handlers.length, p.kind.ptr * (c.locks.length + 1)) := by
    unfold configSizes
    simp only [if_true, w32]
    rw [Nat.mod_eq_of_lt (by omega), Nat.mod_eq_of_lt (by omega)]
    congr 1 <;> omega
  have hlk : w32 (w32 (S + 4 * c.handlers.length) + start) = start + S + 4 * c.handlers.length := by
    simp only [w32]
    rw [Nat.mod_eq_of_lt (a := S + 4 * c.handlers.length) (by omega), Nat.mod_eq_of_lt (by omega)]; omega
  have hneed : w32 (w32 (w32 (S + 4 * c.handlers.length) + p.kind.ptr * (c.locks.length + 1)) + start) = N := by
    simp only [w32]
    rw [Nat.mod_eq_of_lt (a := S + 4 * c.handlers.length) (by omega),
      Nat.mod_eq_of_lt (a := S + 4 * c.handlers.length + p.kind.ptr * (c.locks.length + 1)) (by omega),
      Nat.mod_eq_of_lt (by omega)]; omega
  have hseVa : p.tableVa true c.handlers s.va (start + S) c.seTable =
      .ok (if c.handlers = [] then 0 else p.nt.imageBase + s.va + start + S) := by
    unfold Image.tableVa
    simp only [if_true]
    split
    · rfl
    · rw [w32, Nat.mod_eq_of_lt (by omega), rvaToVa_ok (by omega)]; congr 1; omega
  have hlkVa : p.tableVa true c.locks s.va (start + S + 4 * c.handlers.length) c.lockTable =
      .ok (if c.locks = [] then 0 else p.nt.imageBase + s.va + start + S + 4 * c.handlers.length) := by
    unfold Image.tableVa
    simp only [if_true]
    split
    · rfl
    · rw [w32, Nat.mod_eq_of_lt (by omega), rvaToVa_ok (by omega)]; congr 1; omega
  have hse64 : (if c.handlers = [] then 0 else p.nt.imageBase + s.va + start + S) +
      4 * c.handlers.length + 1 < 256 ^ p.kind.ptr := by
    split <;> omega
  have hlk64 : (if c.locks = [] then 0 else p.nt.imageBase + s.va + start + S + 4 * c.handlers.length) +
      p.kind.ptr * (c.locks.length + 1) < 256 ^ p.kind.ptr := by
    split <;> omega
  -- the sorted handlers
  have hperm := sortBy_perm (fun a b => decide (a ≤ b)) c.handlers
  have hsorted := sortBy_sorted (fun a b : Nat => decide (a ≤ b))
    (by intro a b c; simp; omega) (by intro a b; simp; omega) c.handlers
  simp only [decide_eq_true_eq] at hsorted
  have hsl : (sortBy (fun a b => decide (a ≤ b)) c.handlers).length = c.handlers.length := hperm.length_eq
  generalize hhs : sortBy (fun a b => decide (a ≤ b)) c.handlers = hs at *
  -- what is written
  generalize hseT : (if c.handlers = [] then 0 else p.nt.imageBase + s.va + start + S) = seT at *
  generalize hlkT : (if c.locks = [] then 0 else p.nt.imageBase + s.va + start + S + 4 * c.handlers.length) = lkT at *
  have hg := growTo_ge s.data N
  have hgl := (hroom.grow hh).lt hh
  generalize hc' : ({ c with seTable := seT, lockTable := lkT, seCount := c.handlers.length } : ConfigInfo) = c'
  have hcl : (encFields (configFields p.kind c')).length = S := by rw [configFields_length, hS]
  have hin : ∀ f ∈ configFields p.kind c', f.2 < 256 ^ f.1 := by
    refine configFields_inRange ?_ ?_ ?_ ?_
    · rw [← hc']; exact ⟨hfit.dwords, hfit.words, hfit.wide, hfit.handlers⟩
    · rw [← hc']; show lkT < _; omega
    · rw [← hc']; show seT < _; omega
    · rw [← hc']; show c.handlers.length < _
      omega
  obtain ⟨hdec, hsize⟩ := ConfigInfo.ofBytes_enc p.kind c' hin
  generalize hL : (if c.locks = [] then [] else
    encVals p.kind.ptr (c.locks.map (p.nt.imageBase + ·) ++ [0])) = L
  have hLl : L.length ≤ p.kind.ptr * (c.locks.length + 1) := by
    rw [← hL]
    split
    · simp
    · rw [encVals_length]; simp
  generalize hE : encFields (configFields p.kind c') ++ (encVals 4 hs ++ L) = e
  have hel : e.length = S + (4 * c.handlers.length + L.length) := by
    rw [← hE]; simp [hcl, hsl]
  have hwrite : (do
      let d ← writeAt (growTo s.data N) start (encFields (configFields p.kind c'))
      let d ← writeVals 4 d (start + S) hs
      if true = true ∧ c.locks ≠ [] then p.writeLocks d (start + S + 4 * c.handlers.length) c.locks else .ok d) =
      .ok (patch (growTo s.data N) start e) := by
    have p1 := patch_length (b := growTo s.data N) (off := start) (d := encFields (configFields p.kind c')) (by omega)
    have a1 := patch_patch_adjacent (b := growTo s.data N) (off := start) (d := encFields (configFields p.kind c'))
      (e := encVals 4 hs) (by rw [encVals_length, hsl]; omega)
    have p2 := patch_length (b := growTo s.data N) (off := start)
      (d := encFields (configFields p.kind c') ++ encVals 4 hs)
      (by rw [List.length_append, encVals_length, hsl]; omega)
    rw [hcl] at a1
    rw [writeAt_ok (by omega), ok_bind, writeVals_eq 4 hs _ _ (by rw [hsl]; omega) (by omega), ok_bind, a1]
    by_cases hl0 : c.locks = []
    · rw [if_neg (by simp [hl0])]
      rw [if_pos hl0] at hL
      subst hL
      rw [List.append_nil] at hE
      rw [hE]
    · rw [if_pos ⟨rfl, hl0⟩, writeLocks_eq _ _ _ (by omega) (by omega) (fun r hr => (hlocks r hr).2.1)]
      rw [if_neg hl0] at hL
      rw [hL]
      have a2 := patch_patch_adjacent (b := growTo s.data N) (off := start)
        (d := encFields (configFields p.kind c') ++ encVals 4 hs) (e := L)
        (by rw [List.length_append, encVals_length, hsl]; omega)
      rw [show start + (encFields (configFields p.kind c') ++ encVals 4 hs).length =
        start + S + 4 * c.handlers.length by rw [List.length_append, encVals_length, hsl, hcl]; omega] at a2
      rw [a2, List.append_assoc, hE]
  obtain ⟨q, hq, hw⟩ := finishDir_written (e := e) (pos := start) strip (s.va + start, S) hh hdirs hnum (by omega)
    (by omega) hroom
  have hpos' := hh.pos
  refine ⟨q, ?_, ?_, ?_⟩
  · unfold Image.rebuildConfig
    rw [hh.sec]
    dsimp only
    rw [hS, hpos, hsizes, hse]
    dsimp only
    rw [hlk, hneed, hroom.check hh, ok_bind, hseVa, ok_bind, hlkVa, ok_bind, hc', if_pos rfl]
    rw [hhs]
    rw [show w32 (s.va + start) = s.va + start by rw [w32, Nat.mod_eq_of_lt (by omega)]]
    rw [← hq]
    obtain ⟨d1, hd1, hwrite⟩ := bind_ok_iff.mp hwrite
    obtain ⟨d2, hd2, hwrite⟩ := bind_ok_iff.mp hwrite
    rw [hd1, ok_bind, hd2, ok_bind]
    by_cases hl0 : c.locks = []
    · rw [if_neg (by simp [hl0])] at hwrite ⊢
      rw [Except.ok.inj hwrite]
      rfl
    · rw [if_pos ⟨rfl, hl0⟩] at hwrite ⊢
      rw [hwrite, ok_bind]
  · refine { hw.rebuilt with frame := ?_ }
    intro hdrs o n hn ho hd
    exact hw.rebuilt.frame hdrs o n hn ho (by omega)
  · -- reading back
    obtain ⟨hfr, L', -, -, -, hsh⟩ := hw.shown hh (by omega) (by omega)
    refine ⟨hfr.mono (by omega), e, L', by omega, hsh true (fun _ => hstrip), fun q hr => ⟨hs, hperm, hsorted, ?_⟩⟩
    have hqk : q.kind = p.kind := hr.kind
    have hqb : q.nt.imageBase = p.nt.imageBase := hr.base
    obtain ⟨m, t, hwin, htl, -, hat, hrw⟩ := hr.window
    obtain ⟨hraw, hatr⟩ := hrw rfl
    have hale := hat.le
    have hrle := hatr.le
    have hget : ∀ o n, 0 < n → o + n ≤ e.length →
        q.readInt n (s.va + start + o) .raw false = .ok (fromLE (slice e o n)) := by
      intro o n hn ho
      unfold Image.readInt
      have hsl := hatr.2
      rw [Nat.add_assoc, hraw.readT false (start + o) n (by omega) (by omega), ok_bind, ← slice_slice (n1 := e.length) (by omega), hsl]
    have hva : ∀ o n, 0 < n → o + n ≤ e.length →
        q.readVaInt n (p.nt.imageBase + s.va + start + o) = .ok (fromLE (slice e o n)) := by
      intro o n hn ho
      unfold Image.readVaInt
      rw [show p.nt.imageBase + s.va + start + o = q.nt.imageBase + (s.va + start + o) by rw [hqb]; omega]
      rw [vaToRva_ok (by omega) (by rw [hqb]; exact hb64), ok_bind, hget o n hn ho]
    unfold Image.getConfig
    rw [hr.has, ok_bind]
    rw [show decide ((s.va + start, S).1 ≠ 0) = true by simp; omega, throwIf_neg (by simp), ok_bind]
    rw [hr.rva, ok_bind, hqk, hS]
    have h0 : q.readT S (s.va + start) .virt false = .ok (slice e 0 S) := by
      have hsl := hat.2
      rw [hwin.readT false start S (by omega) (by omega)]
      have := slice_slice (b := m) (o1 := start) (n1 := e.length) (o2 := 0) (n2 := S) (by omega)
      rw [hsl] at this
      rw [this, Nat.add_zero]
    rw [h0, ok_bind, ← hE, slice_append_here (by rw [hcl]), hsize, throwIf_neg (by rw [hS]; omega), ok_bind, hdec]
    dsimp only
    have e1 : c'.seCount = c.handlers.length := by rw [← hc']
    have e2 : c'.seTable = seT := by rw [← hc']
    have e3 : c'.lockTable = lkT := by rw [← hc']
    rw [e1, e2, e3, throwIf_neg (by omega), ok_bind]
    have hse' : q.seLoop seT 0 c.handlers.length = .ok hs := by
      rw [← hsl]
      refine seLoop_eq hs 0 ?_
      intro j v hj
      have hjl : j < hs.length := by
        rw [List.getElem?_eq_some_iff] at hj; exact hj.1
      rw [if_neg (by intro h0; rw [h0] at hsl; simp at hsl; rw [hsl] at hjl; simp at hjl)] at hseT
      rw [hqk, Nat.mod_eq_of_lt (by omega), ← hseT]
      rw [show p.nt.imageBase + s.va + start + S + (0 + j) * 4 = p.nt.imageBase + s.va + start + (S + 4 * j) by omega]
      rw [hva (S + 4 * j) 4 (by omega) (by omega), ← hE, slice_append_right (by omega), hcl,
        show S + 4 * j - S = 4 * j by omega, slice_encVals L hj, fromLE_leBytes]
      rw [Nat.mod_eq_of_lt]
      have hm : v ∈ c.handlers := hperm.mem_iff.mp (List.mem_of_getElem? hj)
      exact hfit.handlers v hm
    rw [hse', ok_bind]
    have hlk' : q.lockPrefixes lkT = .ok c.locks := by
      unfold Image.lockPrefixes
      by_cases hl0 : c.locks = []
      · rw [if_pos hl0] at hlkT
        rw [← hlkT, if_neg (by simp), hl0]
      · rw [if_neg hl0] at hlkT hL
        rw [if_pos (by omega)]
        have hLl : L.length = p.kind.ptr * (c.locks.length + 1) := by rw [← hL, encVals_length]; simp
        have hread : ∀ (j v : Nat), (c.locks.map (p.nt.imageBase + ·) ++ [0])[j]? = some v → v < 256 ^ p.kind.ptr →
            q.readVaInt q.kind.ptr ((lkT + (0 + j) * q.kind.ptr) % 256 ^ q.kind.ptr) = .ok v := by
          intro j v hj hvl
          have hjl : j < c.locks.length + 1 := by
            rw [List.getElem?_eq_some_iff] at hj; simpa using hj.1
          have hjm : p.kind.ptr * (j + 1) ≤ p.kind.ptr * (c.locks.length + 1) := Nat.mul_le_mul_left _ (by omega)
          rw [Nat.mul_succ] at hjm
          have hmj : (0 + j) * p.kind.ptr = p.kind.ptr * j := by rw [Nat.zero_add, Nat.mul_comm]
          rw [hqk, hmj, Nat.mod_eq_of_lt (by omega), ← hlkT]
          rw [show p.nt.imageBase + s.va + start + S + 4 * c.handlers.length + p.kind.ptr * j =
            p.nt.imageBase + s.va + start + (S + 4 * c.handlers.length + p.kind.ptr * j) by omega]
          rw [hva _ _ (by omega) (by omega), ← hE, slice_append_right (by omega), hcl,
            slice_append_right (by rw [encVals_length, hsl]; omega), encVals_length, hsl,
            show S + 4 * c.handlers.length + p.kind.ptr * j - S - 4 * c.handlers.length = p.kind.ptr * j by omega]
          have := slice_encVals (w := p.kind.ptr) [] hj
          rw [List.append_nil, hL] at this
          rw [this, fromLE_leBytes, Nat.mod_eq_of_lt hvl]
        refine lockLoop_eq c.locks _ 0 (by omega) ?_ ?_
        · intro j r hj
          have hjl : j < c.locks.length := by
            rw [List.getElem?_eq_some_iff] at hj; exact hj.1
          obtain ⟨r1, r2, r3⟩ := hlocks r (List.mem_of_getElem? hj)
          refine ⟨p.nt.imageBase + r, hread j _ ?_ r2, by omega, ?_⟩
          · rw [List.getElem?_append_left (by simpa using hjl)]; simp [hj]
          · rw [← hqb]; exact vaToRva_ok r1 (by rw [hqb]; exact hb64)
        · exact hread _ 0 (by simp) (by omega)
    rw [hlk', ok_bind, ← hc']

/-- C45: with enough room, `rebuild_image_config` (writing both tables) succeeds, changes nothing else, and
    `get_image_config` then returns the same scalar fields, the same lock prefixes in the same order and the SE
    handlers sorted in ascending order; the table addresses and the handler count are those of the written tables.
    Missing: a section that is not the last one and is stripped, because the null behind the lock prefix table is
    stripped there (`C45_stripped_unreadable`). -/
theorem C45_round_trip_partial (p : Image) (i off : Nat) (s : Sec) (c : ConfigInfo) (strip : Bool)
    (hh : Host p i s) (hdirs : p.nt.DirsOk) (hnum : dirLoadConfig < p.nt.numRva) (hfit : c.Fits p.kind.ptr)
    (hoff : off < 2 ^ 32 - 8) (hstrip : strip = false ∨ i + 1 = p.secs.length)
    (start N : Nat) (hstart : start = ceilTo off p.kind.ptr)
    (hN : N = start + p.kind.sizeofConfig + 4 * c.handlers.length + p.kind.ptr * (c.locks.length + 1))
    (hroom : HostRoom p i s N)
    (hbase : p.nt.imageBase + s.va + N < 256 ^ p.kind.ptr) (hb64 : p.nt.imageBase + 2 ^ 32 ≤ 2 ^ 64)
    (hlocks : ∀ r ∈ c.locks, r < 2 ^ 32 ∧ p.nt.imageBase + r < 256 ^ p.kind.ptr ∧ 0 < p.nt.imageBase + r) :
    ∃ q, p.rebuildConfig c i off true true true strip = .ok (q, (s.va + start, p.kind.sizeofConfig)) ∧
      RebuiltIn p q i s start (N - start) dirLoadConfig (s.va + start, p.kind.sizeofConfig) ∧
      ∃ hs : List Nat, hs.Perm c.handlers ∧ hs.Pairwise (· ≤ ·) ∧
        q.getConfig = .ok { c with
          handlers := hs
          seCount := c.handlers.length
          seTable := if c.handlers = [] then 0 else p.nt.imageBase + s.va + start + p.kind.sizeofConfig
          lockTable := if c.locks = [] then 0 else
            p.nt.imageBase + s.va + start + p.kind.sizeofConfig + 4 * c.handlers.length } := by
  obtain ⟨q, h1, h2, h3⟩ := config_written p i off s c strip hh hdirs hnum hfit hoff hstrip start N hstart hN hroom hbase hb64 hlocks
  exact ⟨q, h1, h2, h3.now⟩

/-- A configuration with unsorted handlers and two lock prefixes. -/
def demoConfig : ConfigInfo :=
  { timeStamp := 5, major := 1, flagsSet := 7, cookie := 0x402000, csdVersion := 3, seTable := 99,
    handlers := [0x1008, 0x1000, 0x1004], locks := [0x1002, 0x1001] }

theorem demoConfig_fits : demoConfig.Fits 4 := by
  constructor <;> simp [demoConfig]

/-- C45 applies to the demo image (base 0x10000, say), writing to offset 18 of its last section. -/
example : ∃ q hs, demoImage.rebuildConfig demoConfig 1 18 true true true true = .ok (q, (0x2014, 72)) ∧
    hs.Perm [0x1008, 0x1000, 0x1004] ∧ hs.Pairwise (· ≤ ·) ∧
    q.getConfig = .ok { demoConfig with
      handlers := hs
      seCount := 3
      seTable := demoImage.nt.imageBase + 0x205C
      lockTable := demoImage.nt.imageBase + 0x2068 } := by
  obtain ⟨q, h1, -, hs, h2, h3, h4⟩ := C45_round_trip_partial demoImage 1 18 _ demoConfig true demo_host_last
    ⟨rfl, by decide⟩ (by decide) demoConfig_fits (by decide) (Or.inr rfl) 20 _ (by decide) rfl (by decide) (by decide)
    (by decide) (by decide)
  exact ⟨q, hs, h1, h2, h3, h4⟩

/-- What is missing in C45: in a section that is not the last one and that is stripped (`auto_strip_last_section`),
    the null that ends the lock prefix table is cut off, and reading throws. -/
theorem C45_stripped_unreadable : ∃ (p q : Image) (s : Sec) (c : ConfigInfo) (dir : Nat × Nat), Host p 0 s ∧
    p.nt.DirsOk ∧ dirLoadConfig < p.nt.numRva ∧ c.Fits p.kind.ptr ∧ HostRoom p 0 s 512 ∧
    p.rebuildConfig c 0 0 true true true true = .ok (q, dir) ∧ q.getConfig = .error (.exn .rvaNotExists) := by
  obtain ⟨⟨q, dir⟩, h1, h2⟩ := exists_of_okAnd (x := demoImage.rebuildConfig demoConfig 0 0 true true true true)
    (f := fun r => decide (r.1.getConfig = .error (.exn .rvaNotExists))) (by decide +kernel)
  exact ⟨demoImage, q, _, demoConfig, dir, demo_host_first, ⟨rfl, by decide⟩, by decide, demoConfig_fits,
    by decide, h1, of_decide_eq_true h2⟩

/-! ### Reading is safe -/

theorem vaToRva_noUB (p : Image) (va : Nat) : NoUB (p.vaToRva va) := by
  unfold Image.vaToRva
  split
  · unfold Image.vaToRva32
    split
    · exact NoUB.throwE _
    · exact NoUB.ok _
  · unfold Image.vaToRva64
    split
    · exact NoUB.throwE _
    · exact NoUB.ok _

theorem readVaInt_noUB (p : Image) (n va : Nat) : NoUB (p.readVaInt n va) :=
  NoUB.bind (vaToRva_noUB _ _) (fun _ _ => readInt_noUB _ _ _ _ _)

theorem seLoop_noUB (p : Image) (table i n : Nat) : NoUB (p.seLoop table i n) := by
  induction n generalizing i with
  | zero => exact NoUB.ok _
  | succ n ih =>
    rw [Image.seLoop]
    exact NoUB.bind (readVaInt_noUB _ _ _) (fun _ _ => NoUB.bind (ih _) (fun _ _ => NoUB.ok _))

theorem vaToRva_val {p : Image} {va r : Nat} (h : p.vaToRva va = .ok r) :
    r < 4294967296 ∧ r = sub64 va p.nt.imageBase := by
  have key : (if (true = true) ∧ sub64 va p.nt.imageBase > 4294967295 then
      (throwE .incorrectAddressConversion : Res Nat) else .ok (w32 (sub64 va p.nt.imageBase))) = .ok r →
      r < 4294967296 ∧ r = sub64 va p.nt.imageBase := by
    intro h
    generalize sub64 va p.nt.imageBase = x at *
    simp only [true_and] at h
    split at h
    · simp at h
    · injection h with h
      unfold w32 at h
      omega
  unfold Image.vaToRva at h
  split at h
  · exact key h
  · exact key h

/-- The next table element lies one address further. -/
theorem vaToRva_next {p : Image} (hp : p.nt.imageBase < 256 ^ p.kind.ptr) {a r r' : Nat}
    (h : p.vaToRva (a % 256 ^ p.kind.ptr) = .ok r) (hr : r + p.kind.ptr < 4294967296)
    (h' : p.vaToRva ((a + p.kind.ptr) % 256 ^ p.kind.ptr) = .ok r') : r' = r + p.kind.ptr := by
  obtain ⟨h1, h2⟩ := vaToRva_val h
  obtain ⟨h3, h4⟩ := vaToRva_val h'
  have hb := hp
  cases hk : p.kind with
  | pe32 => simp only [hk, Kind.ptr, sub64] at *; omega
  | pe64 => simp only [hk, Kind.ptr, sub64] at *; omega

theorem lockLoop_noUB {p : Image} (hp : Readable p) (table fuel cur : Nat) (hf : 0 < fuel)
    (h : ∀ r, p.vaToRva ((table + cur * p.kind.ptr) % 256 ^ p.kind.ptr) = .ok r →
      4294967296 ≤ r + fuel * p.kind.ptr) : NoUB (p.lockLoop table fuel cur) := by
  induction fuel generalizing cur with
  | zero => omega
  | succ fuel ih =>
    rw [Image.lockLoop]
    refine NoUB.bind (readVaInt_noUB _ _ _) (fun va hva => ?_)
    split
    · exact NoUB.ok _
    · refine NoUB.bind (vaToRva_noUB _ _) (fun _ _ => NoUB.bind ?_ (fun _ _ => NoUB.ok _))
      unfold Image.readVaInt at hva
      obtain ⟨r, hr, hva⟩ := bind_ok_iff.mp hva
      unfold Image.readInt at hva
      obtain ⟨b, hb, -⟩ := bind_ok_iff.mp hva
      have hb' := readT_below hp.reads (vaToRva_val hr).1 hb
      have h0 := h r hr
      rw [Nat.succ_mul] at h0
      refine ih (cur + 1) ?_ ?_
      · rcases Nat.eq_zero_or_pos fuel with hz | hz
        · subst hz; omega
        · exact hz
      · intro r' hr'
        rw [Nat.succ_mul, ← Nat.add_assoc] at hr'
        have := vaToRva_next hp.base hr hb' hr'
        omega

theorem getConfig_noUB {p : Image} (hp : Readable p) : NoUB p.getConfig := by
  unfold Image.getConfig
  refine NoUB.bind (hasDir_noUB hp.dirs.slots (by decide)) (fun b _ => NoUB.bind (NoUB.throwIf _ _) (fun _ _ =>
    NoUB.bind (getDir_noUB hp.dirs _).1 (fun rva _ => NoUB.bind (readT_noUB _ _ _ _ _) (fun b _ =>
    NoUB.bind (NoUB.throwIf _ _) (fun _ _ => NoUB.bind (NoUB.throwIf _ _) (fun _ _ =>
    NoUB.bind (seLoop_noUB _ _ _ _) (fun hs _ => NoUB.bind ?_ (fun _ _ => NoUB.ok _))))))))
  unfold Image.lockPrefixes
  split
  · refine lockLoop_noUB hp _ _ _ (by decide) (fun r _ => ?_)
    have := p.kind.ptr_cases
    omega
  · exact NoUB.ok _

/-- C51: on every image loaded from any file, `get_image_config` returns or throws: it never reads outside of a buffer,
    and the search for the end of the lock prefix table ends. -/
theorem C51_config_safe (k : Kind) (strict fromMem dbg : Bool) (pre : List (Nat × Nat)) (hp : pre.length = 16)
    (hp' : ∀ d ∈ pre, d.1 < 2 ^ 32) (file : Bytes) (p : Image) (h : load k strict fromMem dbg pre file = .ok p) (u : UB) :
    p.getConfig ≠ .error (.ub u) :=
  getConfig_noUB (loaded_readable hp hp' h) u

end PE
