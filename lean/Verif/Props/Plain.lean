/-
C81: the classes that only carry values are records of properties.
-/
import Verif.Lemmas.Plain
namespace PE.Plain

/-- An object after construction and a number of calls; `none` if one of the functions does not exist. -/
def Cls.program {α} (c : Cls) (tys : List MTy) (args : List (PVal α)) (calls : List (ACall α)) : Option (Obj α) :=
  (c.new tys args).bind fun o => calls.foldlM (fun o x => c.call x.1 x.2.1 x.2.2 o) o

theorem rel_calls {α} {d : Decl} {c : Cls} (h : agrees d c = true) : ∀ (calls : List (ACall α)) (o : Obj α) (s : Props α),
    (∀ x ∈ calls, (x.1, x.2.1) ∈ d.setters ∧ ofTys x.2.2 x.2.1) → Rel d c o s →
    ∃ o', calls.foldlM (fun o x => c.call x.1 x.2.1 x.2.2 o) o = some o' ∧
      Rel d c o' (calls.foldl (fun s x => applyChanges (setterOf d.name x.1 x.2.1) x.2.2 s) s)
  | [], o, s, _, hr => ⟨o, rfl, hr⟩
  | x :: xs, o, s, hx, hr => by
    obtain ⟨h1, h2⟩ := hx x (by simp)
    obtain ⟨o1, ho1, hr1⟩ := rel_call h h1 h2 hr
    obtain ⟨o2, ho2, hr2⟩ := rel_calls h xs o1 _ (fun y hy => hx y (by simp [hy])) hr1
    refine ⟨o2, ?_, hr2⟩
    simp only [List.foldlM_cons, ho1]
    exact ho2

theorem agrees_all : (api.zip classes).all (fun x => agrees x.1 x.2) = true := by decide +kernel

/-- C81: for every class of the list, every constructor, every sequence of calls of the functions that change the object, with any
    arguments of the declared types: every function the header declares exists, nothing uninitialised is read, and each getter
    returns what the record of properties says. -/
theorem C81_accessors {α} (d : Decl) (hd : d ∈ api) : ∃ c ∈ classes, c.name = d.name ∧
    ∀ ps ∈ d.ctors, ∀ args : List (PVal α), ofTys args (ps.map (·.2)) →
    ∀ calls : List (ACall α), (∀ x ∈ calls, (x.1, x.2.1) ∈ d.setters ∧ ofTys x.2.2 x.2.1) →
    ∃ o, c.program (ps.map (·.2)) args calls = some o ∧
      ∀ g ∈ d.getters, c.get g.1 o =
        some (.ok ((getterOf d.name g.1).2.of (d.after ps args calls (getterOf d.name g.1).1))) := by
  obtain ⟨i, hi, rfl⟩ := List.mem_iff_getElem.1 hd
  have hl : api.length = classes.length := by decide +kernel
  have hm : (api[i], classes[i]'(hl ▸ hi)) ∈ api.zip classes := by
    rw [List.mem_iff_getElem]
    exact ⟨i, by simp only [List.length_zip, ← hl, Nat.min_self]; exact hi, by simp⟩
  have ha := List.all_eq_true.1 agrees_all _ hm
  refine ⟨classes[i]'(hl ▸ hi), List.getElem_mem _, ?_, fun ps hps args hargs calls hcalls => ?_⟩
  · simp only [agrees, Bool.and_eq_true, decide_eq_true_eq] at ha
    exact ha.1.1.1.symm
  obtain ⟨o, ho, hr⟩ := rel_new ha hps hargs
  obtain ⟨o', ho', hr'⟩ := rel_calls ha calls o _ hcalls hr
  refine ⟨o', ?_, fun g hg => rel_get ha hr' hg⟩
  simp only [Cls.program, ho, Option.bind_some]
  exact ho'

/-- A TLS description (elements of the list of callbacks are numbers). -/
def tlsCalls : List (ACall Nat) := [
  ("set_raw_data_start_rva", [.num 32], [.num 0x2000]), ("set_raw_data", [.str], [.str [1, 2, 3]]),
  ("add_tls_callback", [.elem], [.elem 0x1000]), ("add_tls_callback", [.elem], [.elem 0x1010]),
  ("set_raw_data_start_rva", [.num 32], [.num 0xFFFFFFFF])]

/-- C81 is not empty: a sequence of calls for TLS information that meets the hypotheses, and what the getters return. -/
example : tlsInfoD ∈ api ∧ [] ∈ tlsInfoD.ctors ∧ (∀ x ∈ tlsCalls, (x.1, x.2.1) ∈ tlsInfoD.setters) ∧
    (∀ x ∈ tlsCalls, ofTys x.2.2 x.2.1) ∧
    tlsInfoD.after [] [] tlsCalls "raw_data_start_rva" = .num 0xFFFFFFFF ∧
    tlsInfoD.after [] [] tlsCalls "raw_data" = .str [1, 2, 3] ∧
    tlsInfoD.after [] [] tlsCalls "tls_callbacks" = .seq [0x1000, 0x1010] ∧
    tlsInfoD.after [] [] tlsCalls "index_rva" = .num 0 := by
  refine ⟨by simp [api], by decide +kernel, by decide +kernel, ?_, by decide +kernel, by decide +kernel, by decide +kernel,
    by decide +kernel⟩
  intro x hx
  simp only [tlsCalls, List.mem_cons, List.not_mem_nil, or_false] at hx
  rcases hx with rfl | rfl | rfl | rfl | rfl <;> simp [ofTys, PVal.ofTy]

/-- The functions that change property `p`. -/
def touches (cls : String) (p : String) (x : String × List MTy) : Bool := ((setterOf cls x.1 x.2).lookup p).isSome

theorem after_keeps {α} (d : Decl) (p : String) : ∀ (calls : List (ACall α)) (s : Props α),
    (∀ x ∈ calls, touches d.name p (x.1, x.2.1) = false) →
    calls.foldl (fun s x => applyChanges (setterOf d.name x.1 x.2.1) x.2.2 s) s p = s p
  | [], _, _ => rfl
  | x :: xs, s, h => by
    rw [List.foldl_cons, after_keeps d p xs _ (fun y hy => h y (by simp [hy]))]
    have hx := h x (by simp)
    simp only [touches, Option.isSome_eq_false_iff, Option.isNone_iff_eq_none] at hx
    simp [applyChanges, hx, Change.apply]

/-- C81: the getter of a property returns the value given to the last call of its setter, whatever was called before and
    whatever functions that do not concern the property are called afterwards. -/
theorem C81_last_set {α} (d : Decl) (hd : d ∈ api) : ∃ c ∈ classes, c.name = d.name ∧
    ∀ ps ∈ d.ctors, ∀ args : List (PVal α), ofTys args (ps.map (·.2)) →
    ∀ (before later : List (ACall α)) (fn : String) (ty : MTy) (v : PVal α) (g : String) (rty : MTy),
    (∀ x ∈ before ++ later, (x.1, x.2.1) ∈ d.setters ∧ ofTys x.2.2 x.2.1) →
    (fn, [ty]) ∈ d.setters → v.ofTy ty → (g, rty) ∈ d.getters →
    setterOf d.name fn [ty] = [((getterOf d.name g).1, .arg 0)] → (getterOf d.name g).2 = .value →
    (∀ x ∈ later, touches d.name (getterOf d.name g).1 (x.1, x.2.1) = false) →
    ∃ o, c.program (ps.map (·.2)) args (before ++ (fn, [ty], [v]) :: later) = some o ∧ c.get g o = some (.ok v) := by
  obtain ⟨c, hc, hn, h⟩ := C81_accessors (α := α) d hd
  refine ⟨c, hc, hn, fun ps hps args ha before later fn ty v g rty hx hs hv hg hset hget hl => ?_⟩
  obtain ⟨o, ho, hgo⟩ := h ps hps args ha (before ++ (fn, [ty], [v]) :: later) (by
    intro x hxm
    simp only [List.mem_append, List.mem_cons] at hxm
    rcases hxm with hxm | rfl | hxm
    · exact hx x (by simp [hxm])
    · exact ⟨hs, hv, trivial⟩
    · exact hx x (by simp [hxm]))
  refine ⟨o, ho, ?_⟩
  have := hgo (g, rty) hg
  rw [this, hget]
  simp only [Tells.of, Decl.after, List.foldl_append, List.foldl_cons]
  rw [after_keeps d _ later _ hl, hset]
  simp [applyChanges, Change.apply, List.lookup]

/-- C81_last_set is not empty: the setters and getters it speaks about (all but the functions listed as doing something else,
    and the getters for which there is no setter); and nothing but its own setter touches, say, the ordinal of an export. -/
example : (("set_ordinal", [MTy.num 16]) ∈ exportedFunctionD.setters ∧ ("get_ordinal", MTy.num 16) ∈ exportedFunctionD.getters ∧
    setterOf "exported_function" "set_ordinal" [.num 16] = [((getterOf "exported_function" "get_ordinal").1, .arg 0)] ∧
    (getterOf "exported_function" "get_ordinal").2 = .value ∧
    exportedFunctionD.setters.filter (touches "exported_function" "ordinal") = [("set_ordinal", [.num 16])]) ∧
    (api.map fun d => (d.setters.filter fun s => d.getters.any fun g =>
      setterOf d.name s.1 s.2 = [((getterOf d.name g.1).1, .arg 0)] && (getterOf d.name g.1).2 = .value).length).sum = 87 := by
  decide +kernel

theorem efSetters :
    setterOf "exported_function" "set_ordinal" [.num 16] = [("ordinal", .arg 0)] ∧
    setterOf "exported_function" "set_rva" [.num 32] = [("rva", .arg 0)] ∧
    setterOf "exported_function" "set_name_ordinal" [.num 16] = [("name_ordinal", .arg 0)] ∧
    setterOf "exported_function" "set_name" [.str] = [("name", .arg 0), ("has_name", .nonEmpty 0)] ∧
    setterOf "exported_function" "set_forwarded_name" [.str] = [("forwarded_name", .arg 0), ("forwarded", .nonEmpty 0)] := by
  decide +kernel

theorem efInitial : ctorOf "exported_function" [] = [] ∧ exportedFunctionD.propTy "name" = some .str ∧
    exportedFunctionD.propTy "forwarded_name" = some .str ∧ exportedFunctionD.propTy "has_name" = some (.num 1) ∧
    exportedFunctionD.propTy "forwarded" = some (.num 1) ∧ exportedFunctionD.initialNum "has_name" = 0 ∧
    exportedFunctionD.initialNum "forwarded" = 0 := by decide +kernel

theorem ofTys_num {α} {args : List (PVal α)} {w : Nat} (h : ofTys args [.num w]) : ∃ n, args = [.num n] := by
  match args, h with
  | [.num n], _ => exact ⟨n, rfl⟩

theorem ofTys_str {α} {args : List (PVal α)} (h : ofTys args [.str]) : ∃ s, args = [.str s] := by
  match args, h with
  | [.str s], _ => exact ⟨s, rfl⟩

theorem export_flags_after {α} (calls : List (ACall α)) : ∀ (s : Props α) (l f : List Nat),
    s "name" = .str l → s "has_name" = .num (if l = [] then 0 else 1) →
    s "forwarded_name" = .str f → s "forwarded" = .num (if f = [] then 0 else 1) →
    (∀ x ∈ calls, (x.1, x.2.1) ∈ exportedFunctionD.setters ∧ ofTys x.2.2 x.2.1) →
    ∃ l f, (calls.foldl (fun s x => applyChanges (setterOf "exported_function" x.1 x.2.1) x.2.2 s) s "name" = .str l) ∧
      (calls.foldl (fun s x => applyChanges (setterOf "exported_function" x.1 x.2.1) x.2.2 s) s "has_name" =
        .num (if l = [] then 0 else 1)) ∧
      (calls.foldl (fun s x => applyChanges (setterOf "exported_function" x.1 x.2.1) x.2.2 s) s "forwarded_name" = .str f) ∧
      (calls.foldl (fun s x => applyChanges (setterOf "exported_function" x.1 x.2.1) x.2.2 s) s "forwarded" =
        .num (if f = [] then 0 else 1)) := by
  induction calls with
  | nil => intro s l f h1 h2 h3 h4 _; exact ⟨l, f, h1, h2, h3, h4⟩
  | cons x xs ih =>
    intro s l f h1 h2 h3 h4 hx
    obtain ⟨hs, ht⟩ := hx x (by simp)
    obtain ⟨fn, tys, args⟩ := x
    simp only [exportedFunctionD, List.mem_cons, Prod.mk.injEq, List.not_mem_nil, or_false] at hs
    have hrest : ∀ y ∈ xs, (y.1, y.2.1) ∈ exportedFunctionD.setters ∧ ofTys y.2.2 y.2.1 := fun y hy => hx y (by simp [hy])
    rcases hs with ⟨rfl, rfl⟩ | ⟨rfl, rfl⟩ | ⟨rfl, rfl⟩ | ⟨rfl, rfl⟩ | ⟨rfl, rfl⟩
    · obtain ⟨n, rfl⟩ := ofTys_num ht
      refine ih _ l f ?_ ?_ ?_ ?_ hrest <;> simpa [applyChanges, efSetters, List.lookup, Change.apply]
    · obtain ⟨n, rfl⟩ := ofTys_num ht
      refine ih _ l f ?_ ?_ ?_ ?_ hrest <;> simpa [applyChanges, efSetters, List.lookup, Change.apply]
    · obtain ⟨n, rfl⟩ := ofTys_str ht
      refine ih _ n f ?_ ?_ ?_ ?_ hrest <;> simp [applyChanges, efSetters, List.lookup, Change.apply, h3, h4]
    · obtain ⟨n, rfl⟩ := ofTys_num ht
      refine ih _ l f ?_ ?_ ?_ ?_ hrest <;> simpa [applyChanges, efSetters, List.lookup, Change.apply]
    · obtain ⟨n, rfl⟩ := ofTys_str ht
      refine ih _ l n ?_ ?_ ?_ ?_ hrest <;> simp [applyChanges, efSetters, List.lookup, Change.apply, h1, h2]

/-- C81: `has_name` and `is_forwarded` of an exported function say whether there is a name and a forwarder, after any
    sequence of calls. -/
theorem C81_export_flags {α} (calls : List (ACall α))
    (hcalls : ∀ x ∈ calls, (x.1, x.2.1) ∈ exportedFunctionD.setters ∧ ofTys x.2.2 x.2.1) :
    ∃ o l f, exportedFunctionC.program [] [] calls = some o ∧
      exportedFunctionC.get "get_name" o = some (.ok (.str l)) ∧
      exportedFunctionC.get "has_name" o = some (.ok (.num (if l = [] then 0 else 1))) ∧
      exportedFunctionC.get "get_forwarded_name" o = some (.ok (.str f)) ∧
      exportedFunctionC.get "is_forwarded" o = some (.ok (.num (if f = [] then 0 else 1))) := by
  have ha : agrees exportedFunctionD exportedFunctionC = true := by decide +kernel
  obtain ⟨o, ho, hr⟩ := rel_new (α := α) ha (ps := []) (by simp [exportedFunctionD]) (args := []) trivial
  obtain ⟨o', ho', hr'⟩ := rel_calls ha calls o _ hcalls hr
  obtain ⟨l, f, h1, h2, h3, h4⟩ := export_flags_after calls (applyChanges (ctorOf "exported_function" []) [] exportedFunctionD.initial)
    [] [] (by simp [applyChanges, efInitial, Change.apply, Decl.initial])
    (by simp [applyChanges, efInitial, Change.apply, Decl.initial])
    (by simp [applyChanges, efInitial, Change.apply, Decl.initial])
    (by simp [applyChanges, efInitial, Change.apply, Decl.initial]) hcalls
  refine ⟨o', l, f, ?_, ?_, ?_, ?_, ?_⟩
  · have : exportedFunctionC.new [] ([] : List (PVal α)) = some o := ho
    simp only [Cls.program, this, Option.bind_some]; exact ho'
  · rw [rel_get ha hr' (g := ("get_name", .str)) (by simp [exportedFunctionD])]
    rw [show getterOf exportedFunctionD.name "get_name" = ("name", .value) by decide +kernel]
    exact congrArg _ (congrArg _ h1)
  · rw [rel_get ha hr' (g := ("has_name", .num 1)) (by simp [exportedFunctionD])]
    rw [show getterOf exportedFunctionD.name "has_name" = ("has_name", .value) by decide +kernel]
    exact congrArg _ (congrArg _ h2)
  · rw [rel_get ha hr' (g := ("get_forwarded_name", .str)) (by simp [exportedFunctionD])]
    rw [show getterOf exportedFunctionD.name "get_forwarded_name" = ("forwarded_name", .value) by decide +kernel]
    exact congrArg _ (congrArg _ h3)
  · rw [rel_get ha hr' (g := ("is_forwarded", .num 1)) (by simp [exportedFunctionD])]
    rw [show getterOf exportedFunctionD.name "is_forwarded" = ("forwarded", .value) by decide +kernel]
    exact congrArg _ (congrArg _ h4)

/-- C81_export_flags is not empty: a name is set and removed again, a forwarder is set. -/
example : let calls : List (ACall Nat) := [("set_name", [.str], [.str [65]]), ("set_forwarded_name", [.str], [.str [66, 46, 67]]),
      ("set_name", [.str], [.str []])]
    (∀ x ∈ calls, (x.1, x.2.1) ∈ exportedFunctionD.setters) ∧
    exportedFunctionD.after [] [] calls "has_name" = .num 0 ∧ exportedFunctionD.after [] [] calls "forwarded" = .num 1 := by
  decide +kernel

/-- The function that sets the minor version of a resource directory is called `get_minor_version`; there is no
    `set_minor_version` (pe_resources.cpp:318-321). -/
theorem C81_minor_version : ("get_minor_version", [MTy.num 16]) ∈ resourceDirectoryD.setters ∧
    setterOf "resource_directory" "get_minor_version" [.num 16] = [("minor_version", .arg 0)] ∧
    ∀ s ∈ resourceDirectoryC.setters, s.1 ≠ "set_minor_version" := by decide +kernel

end PE.Plain
