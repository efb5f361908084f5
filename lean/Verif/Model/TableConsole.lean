import Verif.Model.HashBuckets

/-!
# A hash table and `std::cerr`: the messages of `hashbuckets.hpp`

The calls themselves are in `Model/HashBuckets`.  Here a table comes with everything it has written to `std::cerr`, one text per line.  The
user has a family `algs` of hash algorithms.  Not modelled here: the texts of the exceptions that end the process.
-/

namespace EoPsi

/-- What a user does with a table (`conceal` and the statistics write nothing to `std::cerr`, and are not among the acts). -/
inductive TableAct (T ι : Type)
  | use (a : Option ι)
  | add (x : T)
  | addTo (x : T) (i : Nat)

namespace HashBuckets
variable {T ι : Type}

/-- The message of `setHashAlgorithm`, hashbuckets.hpp:108-111, and of `add`, hashbuckets.hpp:137-138. -/
def messages (h : HashBuckets T) : TableAct T ι → List String
  | .use none => ["setHashAlgorithm(). WARNING: null pointer given as algorithm, nothing to do."]
  | .use (some _) => []
  | .add _ => match h.alg with
    | some _ => []
    | none => ["HashBuckets<T>::add(). Element index completely invented (you did not set a hash algorithm)."]
  | .addTo _ _ => []

/-- One act, hashbuckets.hpp:107-154. -/
def does (algs : ι → HashAlg T) (h : HashBuckets T) : TableAct T ι → C (HashBuckets T)
  | .use a => h.setHashAlgorithm (a.map algs)
  | .add x => h.add x
  | .addTo x i => h.addToBucket x i

/-- A history of acts on a table that has written `err`. -/
def talk (algs : ι → HashAlg T) (h : HashBuckets T) (err : List String) : List (TableAct T ι) → C (HashBuckets T × List String)
  | [] => .ok (h, err)
  | a :: as => do
    let h' ← h.does algs a
    talk algs h' (err ++ h.messages a) as

/-- The constructor (hashbuckets.hpp:78-96), which calls `setHashAlgorithm`, and a history. -/
def life (algs : ι → HashAlg T) (length maxLoad : Nat) (a : Option ι) (as : List (TableAct T ι)) : C (HashBuckets T × List String) := do
  let h ← HashBuckets.new length maxLoad (a.map algs)
  talk algs h (match a with
    | none => ["setHashAlgorithm(). WARNING: null pointer given as algorithm, nothing to do."]
    | some _ => []) as

end HashBuckets

end EoPsi
