/-
The stepwise operations on TLS, imports, relocations and headers of `Model/Failing` give the same results as the other
models.
-/
import Verif.Lemmas.FailingMore
namespace PE

/-! ### TLS -/

theorem tlsPutDataM_result (w : Bool) (t : TlsInfo) (k : ExpandType) (p : Image) :
    (tlsPutDataM w t k).result p = p.tlsPutDataIf w t k >>= fun q => .ok (q, ()) := by
  unfold tlsPutDataM Image.tlsPutDataIf Image.tlsPutData
  cases w
  · rw [if_neg (by simp), if_neg (by simp)]; rfl
  · rw [if_pos rfl]
    by_cases h : t.start ≠ 0 ∧ t.start ≠ t.stop
    · rw [if_pos ⟨rfl, h⟩, if_pos h, result_bind, expandQuietM_result, bind_assoc', bind_assoc']
      congr 1
      funext q
      rw [ok_bind, result_bind, result_image, ok_bind, result_bind, result_lift, bind_assoc', bind_assoc']
      congr 1
      funext size
      rw [ok_bind]
      unfold tlsCopyM
      dsimp only
      by_cases hs : size = 0
      · rw [if_pos hs, if_pos hs]; rfl
      · rw [if_neg hs, if_neg hs, result_bind, result_image, ok_bind, result_bind, result_lift, bind_assoc', bind_assoc']
        congr 1
        funext l
        rw [ok_bind, result_bind, result_lift, bind_assoc', bind_assoc']
        congr 1
        funext b
        rw [ok_bind, writeLocM_result]
    · rw [if_neg (fun x => h x.2), if_neg h]; rfl

theorem tlsPutCallbacksM_result (w : Bool) (t : TlsInfo) (p : Image) :
    (tlsPutCallbacksM w t).result p = p.tlsPutCallbacksIf w t >>= fun q => .ok (q, ()) := by
  unfold tlsPutCallbacksM Image.tlsPutCallbacksIf Image.tlsPutCallbacks
  cases w
  · rw [if_neg (by simp), if_neg (by simp)]; rfl
  · rw [if_pos rfl]
    by_cases h : t.callbacksRva ≠ 0
    · rw [if_pos ⟨rfl, h⟩, if_pos h, result_bind, result_image, ok_bind]
      dsimp only
      rw [result_bind, expandQuietM_result, bind_assoc', bind_assoc']
      congr 1
      funext q
      rw [ok_bind, result_bind, result_image, ok_bind, result_bind, result_lift, bind_assoc', bind_assoc']
      congr 1
      funext a
      rw [ok_bind, result_bind, result_lift, bind_assoc', bind_assoc']
      congr 1
      funext _
      rw [ok_bind, result_bind, result_lift, bind_assoc', bind_assoc']
      congr 1
      funext v
      rw [ok_bind, result_bind, result_lift, bind_assoc', bind_assoc']
      congr 1
      funext _
      rw [ok_bind, result_bind, result_lift, bind_assoc', bind_assoc']
      congr 1
      funext vas
      rw [ok_bind, result_bind, result_lift, bind_assoc', bind_assoc']
      congr 1
      funext l
      rw [ok_bind, writeLocM_result]
    · rw [if_neg (fun x => h x.2), if_neg h]; rfl

theorem result_sec_none {p : Image} {i : Nat} (h : p.secs[i]? = none) : (IM.sec i).result p = ubE .badIter := by
  unfold IM.result IM.sec
  rw [h]
  rfl

theorem set_self {p : Image} {i : Nat} {s : Sec} (h : p.secs[i]? = some s) : ({ p with secs := p.secs.set i s } : Image) = p := by
  obtain ⟨hi, he⟩ := List.getElem?_eq_some_iff.1 h
  rw [← he, List.set_getElem_self]

theorem expandLeft_kind (p : Image) (i rva size : Nat) (k : ExpandType) : (p.expandLeft i rva size k).kind = p.kind := by
  unfold Image.expandLeft
  repeat' split
  all_goals rfl

theorem rebuildTlsM_result (t : TlsInfo) (i off : Nat) (wcb wdata : Bool) (k : ExpandType) (save strip : Bool) (p : Image)
    (hk : ∀ d s q, p.secs[i]? = some s →
      (({ p with secs := p.secs.set i { s with data := d } } : Image).tlsPutDataIf wdata t k >>= fun q =>
        q.tlsPutCallbacksIf wcb t) = .ok q → q.kind = p.kind) :
    (rebuildTlsM t i off wcb wdata k save strip).result p = p.rebuildTls t i off wcb wdata k save strip := by
  unfold rebuildTlsM Image.rebuildTls
  rw [result_bind, result_image, ok_bind]
  dsimp only
  cases h : p.secs[i]? with
  | none => rfl
  | some s =>
    dsimp only
    rw [result_bind, result_lift, bind_assoc']
    congr 1
    funext u
    rw [ok_bind, result_bind, result_lift, bind_assoc']
    congr 1
    funext u
    rw [ok_bind, onData_onData h, ok_bind, result_bind, result_lift, bind_assoc']
    congr 1
    funext b
    rw [ok_bind, onDataSet h]
    congr 1
    funext d
    rw [result_bind, tlsPutDataM_result, bind_assoc']
    have hk := hk d s
    generalize ({ p with secs := p.secs.set i { s with data := d } } : Image) = p1 at hk ⊢
    cases h1 : p1.tlsPutDataIf wdata t k with
    | error e => rfl
    | ok q =>
      rw [ok_bind, ok_bind, ok_bind, result_bind, tlsPutCallbacksM_result, bind_assoc']
      cases h2 : q.tlsPutCallbacksIf wcb t with
      | error e => rfl
      | ok q2 =>
        have hq : q2.kind = p.kind := hk q2 h (by rw [h1, ok_bind, h2])
        rw [ok_bind, ok_bind, ok_bind, result_bind]
        unfold Image.tlsFinish
        cases h3 : q2.secs[i]? with
        | none => rw [result_sec_none h3]; rfl
        | some s2 =>
          rw [result_sec h3, ok_bind]
          have := finishDirM_result h3 s2.data strip save dirTls (w32 (s2.va + alignUp off p.kind.ptr), p.kind.sizeofTls)
          rw [set_self h3] at this
          rw [hq]
          exact this

/-! ### Imports -/

/-- The state of the writer in the other model. -/
def ImportPos.st (x : ImportPos) (p : Image) : ImportSt :=
  { img := p, str := x.str, iat := x.iat, orig := x.orig, ft := x.ft, oft := x.oft }

/-- The positions in such a state. -/
def ImportSt.pos (st : ImportSt) : ImportPos := { str := st.str, iat := st.iat, orig := st.orig, ft := st.ft, oft := st.oft }

theorem rawPut_kind {p q : Image} {l : Loc} {x : Bytes} (h : p.writeLoc l x = .ok q) : q.kind = p.kind := by
  unfold Image.writeLoc at h
  cases l with
  | hdr o =>
    dsimp only at h
    obtain ⟨_, _, h⟩ := bind_ok_iff.1 h
    cases h; rfl
  | sec i o =>
    dsimp only at h
    split at h
    · cases h
    · obtain ⟨_, _, h⟩ := bind_ok_iff.1 h
      cases h; rfl

theorem savedPutM_result (rva v : Nat) (p : Image) :
    (savedPutM rva v).result p = p.savedPut rva v >>= fun q => .ok (q, ()) := by
  unfold savedPutM Image.savedPut
  rw [result_bind, result_image, ok_bind, result_bind, result_lift, bind_assoc', bind_assoc']
  congr 1
  funext n
  rw [ok_bind, result_bind, result_lift, bind_assoc', bind_assoc']
  congr 1
  funext _
  rw [ok_bind, result_bind, result_lift, bind_assoc', bind_assoc']
  congr 1
  funext l
  rw [ok_bind, writeLocM_result]

theorem putIatM_result (i : Nat) (pl : ImportPlan) (adv : Bool) (v : Nat) (x : ImportPos) (p : Image) :
    (putIatM i p.kind.ptr pl adv v x).result p = (x.st p).putIat i pl adv v >>= fun st => .ok (st.img, st.pos) := by
  unfold putIatM ImportSt.putIat
  by_cases h : pl.rewIat = true
  · rw [if_pos h, if_pos h, result_bind, savedPutM_result, bind_assoc', bind_assoc']
    rfl
  · rw [if_neg h, if_neg h, result_bind, writeLocM_result, bind_assoc', bind_assoc']
    rfl

theorem putOrigM_result (i : Nat) (pl : ImportPlan) (v : Nat) (x : ImportPos) (p : Image) :
    (putOrigM i p.kind.ptr pl v x).result p = (x.st p).putOrig i pl v >>= fun st => .ok (st.img, st.pos) := by
  unfold putOrigM ImportSt.putOrig
  by_cases h : pl.rewOrig = true
  · rw [if_pos h, if_pos h, result_bind, savedPutM_result, bind_assoc', bind_assoc']
    rfl
  · rw [if_neg h, if_neg h, result_bind, writeLocM_result, bind_assoc', bind_assoc']
    rfl

theorem savedPut_kind {p q : Image} {rva v : Nat} (h : p.savedPut rva v = .ok q) : q.kind = p.kind := by
  unfold Image.savedPut at h
  obtain ⟨_, _, h⟩ := bind_ok_iff.1 h
  obtain ⟨_, _, h⟩ := bind_ok_iff.1 h
  obtain ⟨_, _, h⟩ := bind_ok_iff.1 h
  exact rawPut_kind h

theorem putIat_kind {st st' : ImportSt} {i : Nat} {pl : ImportPlan} {adv : Bool} {v : Nat}
    (h : st.putIat i pl adv v = .ok st') : st'.img.kind = st.img.kind := by
  unfold ImportSt.putIat at h
  split at h
  · obtain ⟨q, hq, h⟩ := bind_ok_iff.1 h
    cases h; exact savedPut_kind hq
  · obtain ⟨q, hq, h⟩ := bind_ok_iff.1 h
    cases h; exact rawPut_kind hq

theorem putOrig_kind {st st' : ImportSt} {i : Nat} {pl : ImportPlan} {v : Nat}
    (h : st.putOrig i pl v = .ok st') : st'.img.kind = st.img.kind := by
  unfold ImportSt.putOrig at h
  split at h
  · obtain ⟨q, hq, h⟩ := bind_ok_iff.1 h
    cases h; exact savedPut_kind hq
  · obtain ⟨q, hq, h⟩ := bind_ok_iff.1 h
    cases h; exact rawPut_kind hq

theorem fnIatM_result (i : Nat) (pl : ImportPlan) (f : ImportFn) (v : Nat) (x : ImportPos) (p : Image) :
    (fnIatM i p.kind.ptr pl f v x).result p = (x.st p).fnIat i pl f v >>= fun st => .ok (st.img, st.pos) := by
  unfold fnIatM ImportSt.fnIat
  by_cases h : pl.saved = true
  · rw [if_pos h, if_pos h]; rfl
  · rw [if_neg h, if_neg h]
    by_cases h2 : pl.writeOrig = true
    · rw [if_pos h2, if_pos h2, putIatM_result]
    · rw [if_neg h2, if_neg h2, putIatM_result]

theorem fnIat_kind {st st' : ImportSt} {i : Nat} {pl : ImportPlan} {f : ImportFn} {v : Nat}
    (h : st.fnIat i pl f v = .ok st') : st'.img.kind = st.img.kind := by
  unfold ImportSt.fnIat at h
  split at h
  · cases h; rfl
  · split at h <;> exact putIat_kind h

theorem fnOrigM_result (i : Nat) (pl : ImportPlan) (v : Nat) (x : ImportPos) (p : Image) :
    (fnOrigM i p.kind.ptr pl v x).result p = (x.st p).fnOrig i pl v >>= fun st => .ok (st.img, st.pos) := by
  unfold fnOrigM ImportSt.fnOrig
  by_cases h : pl.writeOrig = true
  · rw [if_pos h, if_pos h, putOrigM_result]
  · rw [if_neg h, if_neg h]; rfl

theorem fnOrig_kind {st st' : ImportSt} {i : Nat} {pl : ImportPlan} {v : Nat}
    (h : st.fnOrig i pl v = .ok st') : st'.img.kind = st.img.kind := by
  unfold ImportSt.fnOrig at h
  split at h
  · exact putOrig_kind h
  · cases h; rfl

/-- The name of a function in the other model. -/
def ImportSt.fnName (st : ImportSt) (i : Nat) (f : ImportFn) : Res ImportSt :=
  if f.name ≠ [] then do
    let img ← st.img.rawPut i st.str (leBytes 2 f.hint)
    let img ← img.rawPut i (w32 (st.str + 2)) (f.name ++ [0])
    .ok { st with img := img, str := w32 (st.str + (f.name.length + 1 + 2)) }
  else .ok st

theorem putFn_eq (st : ImportSt) (i va : Nat) (pl : ImportPlan) (f : ImportFn) :
    st.putFn i va pl f = (do
      let v := if f.name ≠ [] then w32 (va + st.str) else f.ordinal ||| 2 ^ (8 * st.img.kind.ptr - 1)
      let st ← st.fnIat i pl f v
      let st ← st.fnOrig i pl v
      st.fnName i f) := rfl

theorem fnName_kind {st st' : ImportSt} {i : Nat} {f : ImportFn}
    (h : st.fnName i f = .ok st') : st'.img.kind = st.img.kind := by
  unfold ImportSt.fnName at h
  split at h
  · obtain ⟨q, hq, h⟩ := bind_ok_iff.1 h
    obtain ⟨q', hq', h⟩ := bind_ok_iff.1 h
    cases h
    exact (rawPut_kind hq').trans (rawPut_kind hq)
  · cases h; rfl

theorem fnNameM_result (i : Nat) (f : ImportFn) (x : ImportPos) (p : Image) :
    (fnNameM i f x).result p = (x.st p).fnName i f >>= fun st => .ok (st.img, st.pos) := by
  unfold fnNameM ImportSt.fnName
  by_cases h : f.name ≠ []
  · rw [if_pos h, if_pos h, result_bind, writeLocM_result, bind_assoc', bind_assoc']
    congr 1
    funext q
    rw [ok_bind, result_bind, writeLocM_result, bind_assoc', bind_assoc']
    rfl
  · rw [if_neg h, if_neg h]; rfl

theorem putFn_kind {st st' : ImportSt} {i va : Nat} {pl : ImportPlan} {f : ImportFn}
    (h : st.putFn i va pl f = .ok st') : st'.img.kind = st.img.kind := by
  rw [putFn_eq] at h
  dsimp only at h
  obtain ⟨a, ha, h⟩ := bind_ok_iff.1 h
  obtain ⟨b, hb, h⟩ := bind_ok_iff.1 h
  exact (fnName_kind h).trans ((fnOrig_kind hb).trans (fnIat_kind ha))

theorem putFnM_result (i va : Nat) (pl : ImportPlan) (f : ImportFn) (x : ImportPos) (p : Image) :
    (putFnM i va p.kind.ptr pl f x).result p = (x.st p).putFn i va pl f >>= fun st => .ok (st.img, st.pos) := by
  rw [putFn_eq]
  unfold putFnM
  dsimp only
  rw [result_bind, fnIatM_result, bind_assoc', bind_assoc']
  show _ = (x.st p).fnIat i pl f (if f.name ≠ [] then w32 (va + x.str) else f.ordinal ||| 2 ^ (8 * p.kind.ptr - 1)) >>= _
  cases h1 : (x.st p).fnIat i pl f (if f.name ≠ [] then w32 (va + x.str) else f.ordinal ||| 2 ^ (8 * p.kind.ptr - 1)) with
  | error e => rfl
  | ok st =>
    have hk : p.kind = st.img.kind := (fnIat_kind h1).symm
    rw [ok_bind, ok_bind, ok_bind, result_bind]
    dsimp only
    show (fnOrigM i p.kind.ptr pl (if f.name ≠ [] then w32 (va + x.str) else f.ordinal ||| 2 ^ (8 * p.kind.ptr - 1)) st.pos).result
      st.img >>= _ = (st.fnOrig i pl (if f.name ≠ [] then w32 (va + x.str) else f.ordinal ||| 2 ^ (8 * p.kind.ptr - 1)) >>= _) >>= _
    generalize (if f.name ≠ [] then w32 (va + x.str) else f.ordinal ||| 2 ^ (8 * p.kind.ptr - 1)) = v
    rw [hk, fnOrigM_result, bind_assoc', bind_assoc']
    congr 1
    funext st2
    rw [ok_bind, fnNameM_result]
    rfl

theorem putFnsM_result (i va : Nat) (pl : ImportPlan) (fs : List ImportFn) (x : ImportPos) (p : Image) :
    (putFnsM i va p.kind.ptr pl fs x).result p = (x.st p).putFns i va pl fs >>= fun st => .ok (st.img, st.pos) := by
  induction fs generalizing x p with
  | nil => rfl
  | cons f fs ih =>
    unfold putFnsM ImportSt.putFns
    rw [result_bind, putFnM_result, bind_assoc', bind_assoc']
    cases h1 : (x.st p).putFn i va pl f with
    | error e => rfl
    | ok st =>
      have hk : p.kind = st.img.kind := (putFn_kind h1).symm
      rw [ok_bind, ok_bind, ok_bind, hk]
      exact ih st.pos st.img

theorem putFns_kind {i va : Nat} {pl : ImportPlan} {fs : List ImportFn} {st st' : ImportSt}
    (h : st.putFns i va pl fs = .ok st') : st'.img.kind = st.img.kind := by
  induction fs generalizing st with
  | nil => cases h; rfl
  | cons f fs ih =>
    unfold ImportSt.putFns at h
    obtain ⟨a, ha, h⟩ := bind_ok_iff.1 h
    exact (ih h).trans (putFn_kind ha)

theorem endIatM_result (i : Nat) (pl : ImportPlan) (x : ImportPos) (p : Image) :
    (endIatM i p.kind.ptr pl x).result p = (x.st p).endIat i pl >>= fun st => .ok (st.img, st.pos) := by
  unfold endIatM ImportSt.endIat
  by_cases h : pl.saved = true
  · rw [if_pos h, if_pos h]; rfl
  · rw [if_neg h, if_neg h, putIatM_result]

theorem endIat_kind {st st' : ImportSt} {i : Nat} {pl : ImportPlan}
    (h : st.endIat i pl = .ok st') : st'.img.kind = st.img.kind := by
  unfold ImportSt.endIat at h
  split at h
  · cases h; rfl
  · exact putIat_kind h

theorem putLib_kind {st st' : ImportSt} {c : ImportCfg} {i va desc : Nat} {l : ImportLib}
    (h : st.putLib c i va desc l = .ok st') : st'.img.kind = st.img.kind := by
  unfold ImportSt.putLib at h
  dsimp only at h
  obtain ⟨a, ha, h⟩ := bind_ok_iff.1 h
  obtain ⟨b, hb, h⟩ := bind_ok_iff.1 h
  obtain ⟨c1, hc, h⟩ := bind_ok_iff.1 h
  obtain ⟨d, hd, h⟩ := bind_ok_iff.1 h
  exact (fnOrig_kind h).trans ((endIat_kind hd).trans ((putFns_kind hc).trans ((rawPut_kind hb).trans (rawPut_kind ha))))

theorem putLibM_result (c : ImportCfg) (i va desc : Nat) (l : ImportLib) (x : ImportPos) (p : Image) :
    (putLibM c i va p.kind.ptr desc l x).result p = (x.st p).putLib c i va desc l >>= fun st => .ok (st.img, st.pos) := by
  unfold putLibM ImportSt.putLib
  dsimp only
  rw [result_bind, writeLocM_result, bind_assoc', bind_assoc']
  show p.writeLoc _ _ >>= _ = p.writeLoc (.sec i desc) (importDescr (importPlan c va x.iat x.orig l).oft l.stamp (w32 (va + x.str)) (importPlan c va x.iat x.orig l).ft) >>= _
  cases h1 : p.writeLoc (.sec i desc) (importDescr (importPlan c va x.iat x.orig l).oft l.stamp (w32 (va + x.str)) (importPlan c va x.iat x.orig l).ft) with
  | error e => rfl
  | ok q =>
    have hk1 : p.kind = q.kind := (rawPut_kind h1).symm
    rw [ok_bind, ok_bind, ok_bind, result_bind, writeLocM_result, bind_assoc', bind_assoc']
    show q.writeLoc _ _ >>= _ = q.writeLoc (.sec i x.str) (l.name ++ [0]) >>= _
    cases h2 : q.writeLoc (.sec i x.str) (l.name ++ [0]) with
    | error e => rfl
    | ok q2 =>
      have hk2 : p.kind = q2.kind := hk1.trans (rawPut_kind h2).symm
      rw [ok_bind, ok_bind, ok_bind, result_bind]
      dsimp only
      show (putFnsM i va p.kind.ptr (importPlan c va x.iat x.orig l) l.funcs
        { x with str := w32 (x.str + (l.name.length + 1)), ft := (importPlan c va x.iat x.orig l).ft, oft := (importPlan c va x.iat x.orig l).oft }).result q2 >>= _ =
        ((ImportPos.st { x with str := w32 (x.str + (l.name.length + 1)), ft := (importPlan c va x.iat x.orig l).ft, oft := (importPlan c va x.iat x.orig l).oft } q2).putFns i va
          (importPlan c va x.iat x.orig l) l.funcs >>= _) >>= _
      generalize ({ x with str := w32 (x.str + (l.name.length + 1)), ft := (importPlan c va x.iat x.orig l).ft, oft := (importPlan c va x.iat x.orig l).oft } : ImportPos) = x2
      show _ = (_ >>= fun st : ImportSt => st.endIat i (importPlan c va x.iat x.orig l) >>= fun st : ImportSt =>
        st.fnOrig i (importPlan c va x.iat x.orig l) 0) >>= _
      generalize importPlan c va x.iat x.orig l = pl
      rw [hk2, putFnsM_result, bind_assoc', bind_assoc']
      cases h3 : (x2.st q2).putFns i va pl l.funcs with
      | error e => rfl
      | ok st =>
        have hk3 : q2.kind = st.img.kind := (putFns_kind h3).symm
        rw [ok_bind, ok_bind, ok_bind, result_bind]
        dsimp only
        rw [hk3, endIatM_result, bind_assoc', bind_assoc']
        show (st.endIat i pl >>= _) = st.endIat i pl >>= _
        cases h4 : st.endIat i pl with
        | error e => rfl
        | ok st2 =>
          have hk4 : st.img.kind = st2.img.kind := (endIat_kind h4).symm
          rw [ok_bind, ok_bind, ok_bind, hk4, fnOrigM_result]
          rfl

theorem putLibsM_result (c : ImportCfg) (i va desc : Nat) (ls : List ImportLib) (x : ImportPos) (p : Image) :
    (putLibsM c i va p.kind.ptr desc ls x).result p = (x.st p).putLibs c i va desc ls >>= fun st => .ok (st.img, st.pos) := by
  induction ls generalizing x p desc with
  | nil =>
    unfold putLibsM ImportSt.putLibs
    rw [result_bind, writeLocM_result, bind_assoc', bind_assoc']
    rfl
  | cons l ls ih =>
    unfold putLibsM ImportSt.putLibs
    rw [result_bind, putLibM_result, bind_assoc', bind_assoc']
    cases h1 : (x.st p).putLib c i va desc l with
    | error e => rfl
    | ok st =>
      have hk : p.kind = st.img.kind := (putLib_kind h1).symm
      rw [ok_bind, ok_bind, ok_bind, hk]
      exact ih _ st.pos st.img

theorem result_onData_none {p : Image} {i : Nat} (h : p.secs[i]? = none) (f : Bytes → Res Bytes) :
    (IM.onData i f).result p = ubE .badIter := by
  unfold IM.onData
  rw [result_bind, result_sec_none h]
  rfl

theorem rebuildImportsM_result (ls : List ImportLib) (i : Nat) (c : ImportCfg) (off : Nat) (setHdrs zeroIat strip : Bool)
    (p : Image) :
    (rebuildImportsM ls i c off setHdrs zeroIat strip).result p = p.rebuildImports ls i c off setHdrs zeroIat strip := by
  unfold rebuildImportsM Image.rebuildImports
  rw [result_bind, result_image, ok_bind]
  dsimp only
  cases h : p.secs[i]? with
  | none => rfl
  | some s =>
    dsimp only
    generalize w32 ((1 + ls.length) * 20 + (if (c.buildOrig || c.fill) = true then w32 (importIatSize p.kind.ptr ls) * 2
        else w32 (importIatSize p.kind.ptr ls)) + p.kind.ptr + w32 (importStrings ls)) = need
    generalize w32 (importStrings ls) = strings
    generalize alignUp (w32 (strings + off + (1 + ls.length) * 20)) p.kind.ptr = iat
    generalize w32 (iat + w32 (importIatSize p.kind.ptr ls)) = orig
    rw [result_bind, result_lift, bind_assoc']
    congr 1
    funext u
    rw [ok_bind, onData_onData h, ok_bind, result_bind]
    generalize hp1 : ({ p with secs := p.secs.set i { s with data := growTo s.data (w32 (need + off)) } } : Image) = p1
    have hk : p.kind = p1.kind := by rw [← hp1]
    rw [hk, putLibsM_result, bind_assoc']
    show (ImportPos.st _ _).putLibs c i s.va _ ls >>= _ = (ImportPos.st { str := off, iat := iat, orig := orig } p1).putLibs c i s.va (w32 (strings + off)) ls >>= _
    congr 1
    funext st
    rw [ok_bind]
    dsimp only
    cases h2 : st.img.secs[i]? with
    | none => rw [result_bind, result_onData_none h2]; rfl
    | some s2 =>
      dsimp only
      rw [onData_onData h2, ok_bind, result_bind, finishDirM_result h2]
      show st.img.finishDir i s2 (resize s2.data st.orig) _ _ _ _ >>= _ = st.img.finishDir i s2 (resize s2.data st.orig) _ _ _ _ >>= _
      congr 1
      funext r
      rw [result_bind, saveDirM_result]
      cases hb : (setHdrs && zeroIat)
      · simp only [Bool.false_eq_true, if_false]; rfl
      · simp only [if_true]
        rw [bind_assoc']
        congr 1
        funext nt
        rw [bind_assoc']
        congr 1

/-! ### Rebasing and saving -/

theorem rebaseOneM_result (delta rva : Nat) (p : Image) :
    (rebaseOneM delta rva).result p = p.rebaseOne delta rva >>= fun q => .ok (q, ()) := by
  unfold rebaseOneM Image.rebaseOne
  rw [result_bind, result_image, ok_bind, result_bind, result_lift, bind_assoc', bind_assoc']
  congr 1
  funext v
  rw [ok_bind, result_bind, result_lift, bind_assoc', bind_assoc']
  congr 1
  funext l
  rw [ok_bind, writeLocM_result]

theorem rebaseEntriesM_result (delta b : Nat) (l : List RelocEntry) (p : Image) :
    (rebaseEntriesM delta b l).result p = p.rebaseEntries delta b l >>= fun q => .ok (q, ()) := by
  induction l generalizing p with
  | nil => rfl
  | cons e l ih =>
    unfold rebaseEntriesM Image.rebaseEntries
    by_cases h : e.type = 0
    · rw [if_pos h, if_pos h, ih]
    · rw [if_neg h, if_neg h, result_bind, rebaseOneM_result, bind_assoc', bind_assoc']
      congr 1
      funext q
      rw [ok_bind, ih]

theorem rebaseTablesM_result (delta : Nat) (l : List RelocTable) (p : Image) :
    (rebaseTablesM delta l).result p = p.rebaseTables delta l >>= fun q => .ok (q, ()) := by
  induction l generalizing p with
  | nil => rfl
  | cons t l ih =>
    unfold rebaseTablesM Image.rebaseTables
    rw [result_bind, rebaseEntriesM_result, bind_assoc', bind_assoc']
    congr 1
    funext q
    rw [ok_bind, ih]

theorem rebaseM_result (l : List RelocTable) (b : Nat) (p : Image) :
    (rebaseM l b).result p = p.rebase l b >>= fun q => .ok (q, ()) := by
  unfold rebaseM Image.rebase
  rw [result_bind, result_image, ok_bind, result_bind, rebaseTablesM_result]
  dsimp only
  rw [bind_assoc', bind_assoc']
  rfl

theorem placeBoundM_result (wanted : Bool) (ptr : Nat) (p : Image) :
    (placeBoundM wanted ptr).result p = p.nt.placeBound wanted ptr >>= fun r => .ok ({ p with nt := r.1 }, r.2) := by
  unfold placeBoundM NtHdr.placeBound
  cases wanted
  · simp only [Bool.false_eq_true, if_false]; rfl
  · simp only [if_true]
    rw [result_bind, setDirM_result, bind_assoc', bind_assoc']
    congr 1
    funext nt
    rw [ok_bind, result_bind, result_image, ok_bind, result_bind, result_lift, bind_assoc', bind_assoc']
    rfl

theorem rebuildHeadersM_result (strip changeSize saveBound : Bool) (p : Image) :
    (rebuildHeadersM strip changeSize saveBound).result p = p.rebuildHeaders strip changeSize saveBound := by
  unfold rebuildHeadersM Image.rebuildHeaders
  rw [result_bind, result_modify, ok_bind, result_bind, result_image, ok_bind]
  dsimp only
  generalize hp : p.stripDos strip = p1
  rw [result_bind, result_lift, bind_assoc']
  congr 1
  funext w
  rw [ok_bind, result_bind, placeBoundM_result, bind_assoc']
  congr 1
  funext r
  rw [ok_bind, result_bind, result_image, ok_bind]
  dsimp only
  rw [result_bind, result_lift, bind_assoc']
  congr 1

theorem bind_congr' {α β : Type} {x : Res α} {f g : α → Res β} (h : ∀ a, f a = g a) : x >>= f = x >>= g := by
  rw [funext h]

theorem rebuildPeM_result (strip changeSize saveBound : Bool) (p : Image) :
    (rebuildPeM strip changeSize saveBound).result p = p.rebuildPe strip changeSize saveBound := by
  unfold rebuildPeM Image.rebuildPe
  rw [result_bind, result_image, ok_bind]
  dsimp only
  rw [result_bind, result_lift, bind_assoc']
  refine bind_congr' fun u => ?_
  rw [ok_bind, result_bind, result_lift, bind_assoc']
  refine bind_congr' fun rva => ?_
  rw [ok_bind, result_bind, rebuildHeadersM_result]
  refine bind_congr' fun r => ?_
  rw [result_bind, result_image, ok_bind, result_bind, result_lift, bind_assoc']
  dsimp only
  refine bind_congr' fun hdr => ?_
  rw [ok_bind, result_bind, result_lift, bind_assoc']
  dsimp only
  refine bind_congr' fun bound => ?_
  rw [ok_bind, result_bind, result_lift, bind_assoc']
  rfl

end PE
