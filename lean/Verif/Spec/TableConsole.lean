import Verif.Model.TableConsole
import Verif.Spec.HashBuckets

/-! # What a table holds, and complains about, in terms of what was asked before -/

namespace EoPsi.Table

variable {T ι : Type}

/-- The algorithm in use: the last one given that was not null. -/
def inUse (before : List (TableAct T ι)) : Option ι :=
  (before.filterMap (fun a => match a with | .use (some i) => some i | _ => none)).getLast?

/-- Where an act puts what: `add` into the bucket of the digest with the algorithm in use (the first bucket if there is none). -/
def target (ds : ι → T → List Byte) (k : Nat) (before : List (TableAct T ι)) : TableAct T ι → Option (Nat × T)
  | .use _ => none
  | .add x => some (match inUse before with | none => 0 | some i => bucketOf (ds i) k x, x)
  | .addTo x j => some (j, x)

/-- Everything that has been put somewhere, in order. -/
def placed (ds : ι → T → List Byte) (k : Nat) (before : List (TableAct T ι)) : List (TableAct T ι) → List (Nat × T)
  | [] => []
  | a :: as => (target ds k before a).toList ++ placed ds k (before ++ [a]) as

/-- What bucket `j` holds after a history. -/
def contents (ds : ι → T → List Byte) (k : Nat) (as : List (TableAct T ι)) (j : Nat) : List T :=
  ((placed ds k [] as).filter (fun y => y.1 = j)).map (fun y => y.2)

/-- The acts that end the process: adding with an algorithm to a bucket that holds exactly `m` elements, and a bucket number that is too large. -/
inductive Stops (ds : ι → T → List Byte) (k m : Nat) (before : List (TableAct T ι)) : TableAct T ι → Prop
  | full {x i} (h : inUse before = some i) (hm : (contents ds k before (bucketOf (ds i) k x)).length = m) : Stops ds k m before (.add x)
  | range {x j} (h : k ≤ j) : Stops ds k m before (.addTo x j)

/-- The complaint about an act, if any. -/
def complaint (before : List (TableAct T ι)) : TableAct T ι → Option String
  | .use none => some "setHashAlgorithm(). WARNING: null pointer given as algorithm, nothing to do."
  | .use (some _) => none
  | .add _ => match inUse before with
    | none => some "HashBuckets<T>::add(). Element index completely invented (you did not set a hash algorithm)."
    | some _ => none
  | .addTo _ _ => none

/-- All complaints of a history, each about one act after the acts `before`. -/
def complaints (before : List (TableAct T ι)) : List (TableAct T ι) → List String
  | [] => []
  | a :: as => (complaint before a).toList ++ complaints (before ++ [a]) as

end EoPsi.Table
