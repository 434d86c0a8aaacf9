/-
`std::map` as a list of pairs, ascending by key.
-/
import Verif.Model.Basic

namespace PE

/-- `std::map<κ, ν>::insert`: a pair for a key that is present is not inserted. `lt` is the order of the keys. -/
def mapAdd {κ ν : Type} [DecidableEq κ] (lt : κ → κ → Bool) (k : κ) (v : ν) : List (κ × ν) → List (κ × ν)
  | [] => [(k, v)]
  | (k', v') :: m =>
    if k = k' then (k', v') :: m
    else if lt k k' then (k, v) :: (k', v') :: m
    else (k', v') :: mapAdd lt k v m

/-- `std::map<κ, ν>::find`. -/
def mapFind {κ ν : Type} [DecidableEq κ] (k : κ) (m : List (κ × ν)) : Option ν := (m.find? (fun x => x.1 = k)).map Prod.snd

end PE
