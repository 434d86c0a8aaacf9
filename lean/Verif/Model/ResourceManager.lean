/-
Model of looking up and editing resources: /repo/src/pe_lib/pe_resource_viewer.cpp, pe_resource_manager.cpp and the finders
in pe_resources.cpp:652-706. The overloads for a name and for a number differ only in the finder: here there is one
function that takes a `ResKey`. All `language` parameters are numbers.
-/
import Verif.Model.Resources

namespace PE

/-- pe_resources.cpp:656-686 `id_entry_finder`, `name_entry_finder`, `entry_finder`. -/
def ResEntry.hasKey (k : ResKey) (e : ResEntry) : Bool :=
  match k with
  | .id n => !e.isNamed && e.key == .id n
  | .name w => e.isNamed && e.key == .name w

/-- pe_resources.cpp:689-706 `entry_by_id`, `entry_by_name`. -/
def ResDir.entryBy (r : ResDir) (k : ResKey) : Res ResEntry :=
  match r.es.find? (ResEntry.hasKey k) with
  | some e => .ok e
  | none => throwE .resourceDirectoryEntryNotFound

/-! ### pe_resource_viewer -/

/-- pe_resource_viewer.cpp:63-75, 21-24 `get_name_list`, `has_name`. -/
def nameList (es : List ResEntry) : List WStr := es.filterMap fun e =>
  match e.key with
  | .name w => some w
  | .id _ => none

/-- pe_resource_viewer.cpp:78-90, 26-29 `get_id_list`, `has_id`. -/
def idList (es : List ResEntry) : List Nat := es.filterMap fun e =>
  match e.key with
  | .id n => some n
  | .name _ => none

/-- pe_resource_viewer.cpp:32-46 `list_resource_types`. -/
def ResDir.listTypes (r : ResDir) : List Nat := idList r.es

/-- pe_resource_viewer.cpp:49-60 `resource_exists`. -/
def ResDir.resourceExists (r : ResDir) (k : ResKey) : Bool := (r.es.find? (ResEntry.hasKey k)).isSome

/-- The directory of one type: `root_dir_.entry_by_..(type).get_resource_directory()`, as in pe_resource_viewer.cpp:95. -/
def ResDir.typeDir (r : ResDir) (t : ResKey) : Res ResDir := do
  let e ← r.entryBy t
  e.getDir

/-- The directory of one resource, as in pe_resource_viewer.cpp:139-150. -/
def ResDir.nameDir (r : ResDir) (t n : ResKey) : Res ResDir := do
  let d ← r.typeDir t
  let e ← d.entryBy n
  e.getDir

/-- pe_resource_viewer.cpp:93-102 `list_resource_names`. -/
def ResDir.listNames (r : ResDir) (t : ResKey) : Res (List WStr) := do
  let d ← r.typeDir t
  .ok (nameList d.es)

/-- pe_resource_viewer.cpp:105-114 `list_resource_ids`. -/
def ResDir.listIds (r : ResDir) (t : ResKey) : Res (List Nat) := do
  let d ← r.typeDir t
  .ok (idList d.es)

/-- pe_resource_viewer.cpp:117-136 `get_resource_count`. -/
def ResDir.resourceCount (r : ResDir) (t : ResKey) : Res Nat := do
  let d ← r.typeDir t
  .ok (w32 d.es.length)

/-- pe_resource_viewer.cpp:139-192 `get_language_count`. -/
def ResDir.languageCount (r : ResDir) (t n : ResKey) : Res Nat := do
  let d ← r.nameDir t n
  .ok (w32 (d.es.countP (fun e => !e.isNamed)))

/-- pe_resource_viewer.cpp:195-248 `list_resource_languages`. -/
def ResDir.listLanguages (r : ResDir) (t n : ResKey) : Res (List Nat) := do
  let d ← r.nameDir t n
  .ok (idList d.es)

/-- pe_resource_viewer.cpp:251-296 `get_resource_data_by_name`, `get_resource_data_by_id` with a language; `resource_data_info`
    holds code page and data (resource_data_info.cpp). -/
def ResDir.getData (r : ResDir) (t n : ResKey) (lang : Nat) : Res (Nat × Bytes) := do
  let d ← r.nameDir t n
  let e ← d.entryBy (.id lang)
  e.getData

/-- pe_resource_viewer.cpp:299-360: the same with an index in the directory of languages. -/
def ResDir.getDataAt (r : ResDir) (t n : ResKey) (index : Nat) : Res (Nat × Bytes) := do
  let d ← r.nameDir t n
  match d.es[index]? with
  | none => throwE .resourceDataEntryNotFound
  | some e => e.getData

/-! ### pe_resource_manager

The functions change the tree in place. Here they return the new tree beside their result, also if they throw. -/

/-- `std::find_if(entries.begin(), entries.end(), finder)` as an index. -/
def findKey (es : List ResEntry) (k : ResKey) : Option Nat := es.findIdx? (ResEntry.hasKey k)

/-- pe_resource_manager.cpp:27-40, 42-55 `remove_resource_type`, `remove_resource(root_name)`. -/
def ResDir.removeType (r : ResDir) (t : ResKey) : ResDir × Res Bool :=
  match findKey r.es t with
  | some i => ({ r with es := r.es.eraseIdx i }, .ok true)
  | none => (r, .ok false)

/-- pe_resource_manager.cpp:58-80, 85-106: `remove_resource` of all languages and its overloads. -/
def ResDir.removeName (r : ResDir) (t n : ResKey) : ResDir × Res Bool :=
  match findKey r.es t with
  | none => (r, .ok false)
  | some i =>
    match r.es[i]? with
    | some (.dir k h es) =>
      match findKey es n with
      | none => (r, .ok false)
      | some j =>
        if (es.eraseIdx j).isEmpty then ({ r with es := r.es.eraseIdx i }, .ok true)
        else ({ r with es := r.es.set i (.dir k h (es.eraseIdx j)) }, .ok true)
    | _ => (r, throwE .resourceDirectoryEntryError)

/-- pe_resource_manager.cpp:109-141, 146-167: `remove_resource` of one language and its overloads. -/
def ResDir.removeLang (r : ResDir) (t n : ResKey) (lang : Nat) : ResDir × Res Bool :=
  match findKey r.es t with
  | none => (r, .ok false)
  | some i =>
    match r.es[i]? with
    | some (.dir k h es) =>
      match findKey es n with
      | none => (r, .ok false)
      | some j =>
        match es[j]? with
        | some (.dir k' h' es') =>
          match findKey es' (.id lang) with
          | none => (r, .ok false)
          | some m =>
            if (es'.eraseIdx m).isEmpty then
              if (es.eraseIdx j).isEmpty then ({ r with es := r.es.eraseIdx i }, .ok true)
              else ({ r with es := r.es.set i (.dir k h (es.eraseIdx j)) }, .ok true)
            else ({ r with es := r.es.set i (.dir k h (es.set j (.dir k' h' (es'.eraseIdx m)))) }, .ok true)
        | _ => (r, throwE .resourceDirectoryEntryError)
    | _ => (r, throwE .resourceDirectoryEntryError)

/-- pe_resource_manager.cpp:190-201, 203-214: the list and the position of the entry for `k`; if there is none a new
    directory is put at the end. -/
def withKey (es : List ResEntry) (k : ResKey) (stamp : Nat) : List ResEntry × Nat :=
  match findKey es k with
  | some i => (es, i)
  | none => (es ++ [.dir k { stamp := stamp } []], es.length)

/-- pe_resource_manager.cpp:216-227: the entries of the directory of languages. -/
def putLang (es : List ResEntry) (lang cp : Nat) (d : Bytes) : List ResEntry :=
  (match findKey es (.id lang) with
   | some m => es.eraseIdx m
   | none => es) ++ [.data (.id lang) cp d]

/-- pe_resource_manager.cpp:188-228, 170-185, 231-264 `add_resource` (the overloads only build the new entries and finders). -/
def ResDir.addResource (r : ResDir) (d : Bytes) (t n : ResKey) (lang cp stamp : Nat) : ResDir × Res Unit :=
  let (es, i) := withKey r.es t stamp
  match es[i]? with
  | some (.dir k h es2) =>
    let (es2, j) := withKey es2 n stamp
    match es2[j]? with
    | some (.dir k' h' es3) =>
      ({ r with es := es.set i (.dir k h (es2.set j (.dir k' h' (putLang es3 lang cp d)))) }, .ok ())
    | _ => ({ r with es := es.set i (.dir k h es2) }, throwE .resourceDirectoryEntryError)
  | _ => ({ r with es := es }, throwE .resourceDirectoryEntryError)

end PE
