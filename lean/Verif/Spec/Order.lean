import Verif.Spec.ObjectType
import Verif.Model.ValueOps
/-!
# Values that say the same
-/
namespace Spec
open Configor

variable {F : Type}

mutual
/-- The two say the same: wherever one has a scalar the other has the same one, arrays agree element by element, and under each key two
objects have both nothing, or members that agree. Of several members with one key the first counts. -/
inductive SaySame : Value F → Value F → Prop where
  | null : SaySame .null .null
  | bool {b} : SaySame (.bool b) (.bool b)
  | int {i} : SaySame (.int i) (.int i)
  | flt {f} : SaySame (.flt f) (.flt f)
  | str {s} : SaySame (.str s) (.str s)
  | arr {xs ys} : SaySameElems xs ys → SaySame (.arr xs) (.arr ys)
  | obj {ms ns : MemberList F} : (∀ k, SaySameUnder (ms.lookup k) (ns.lookup k)) → SaySame (.obj ms) (.obj ns)

/-- `SaySame` for elements. -/
inductive SaySameElems : List (Value F) → List (Value F) → Prop where
  | nil : SaySameElems [] []
  | cons {x y xs ys} : SaySame x y → SaySameElems xs ys → SaySameElems (x :: xs) (y :: ys)

/-- `SaySame` for what is found under a key. -/
inductive SaySameUnder : Option (Value F) → Option (Value F) → Prop where
  | none : SaySameUnder none none
  | some {v w} : SaySame v w → SaySameUnder (some v) (some w)
end

/-- The program `v[k1] = x1; v[k2] = x2; ...` -/
def assignEach (ps : MemberList F) (v : Value F) : Value F := ps.foldl (fun v p => (ValueOps.withKey p.1 (ValueOps.assign p.2) v).2) v

end Spec
