import Verif.Model.Bench

/-!
# The helpers of the simulator, src/test/eopsisimul.cpp

An array (`NTL::ZZ *`) is the list of its elements; `nullptr` is the array without elements.  Allocation does not fail.  `std::set`
is the list of its elements in ascending order.
-/

namespace EoPsi.Simul

/-- A copying loop of `join`, eopsisimul.cpp:69-72 and 74-77: `card` elements of `set` from index `i` on, appended to `res`. -/
def copyLoop (set : List Int) (card : Nat) (i : Nat) (res : List Int) : C (List Int) :=
  if i < card then do
    let x ← atC set i
    copyLoop set card (i + 1) (res ++ [x])
  else .ok res
termination_by card - i

/-- `join`, eopsisimul.cpp:58-80 -/
def join (set1 : List Int) (card1 : Nat) (set2 : List Int) (card2 : Nat) : C (List Int) := do
  let res ← copyLoop set1 card1 0 []
  copyLoop set2 card2 0 res

/-- The comparison function handed to `qsort`, eopsisimul.cpp:98-102 -/
def compare (n1 n2 : Int) : Int := if n1 = n2 then 0 else if n1 < n2 then -1 else 1

/-- `listUnion[i] == listUnion[i - 1]`, eopsisimul.cpp:112 and 127; `i ≥ 1`. -/
def twin (u : List Int) (i : Nat) : C Bool := do
  let x ← atC u i
  let y ← atC u (i - 1)
  pure (decide (x = y))

/-- The first loop of `intersect`, eopsisimul.cpp:111-116.  `tmp` is a pointer into `listUnion`, here the index. -/
def countLoop (u : List Int) (n : Nat) (i : Nat) (card : Nat) (tmp : Option Nat) : C Nat :=
  if i < n then do
    let e ← twin u i
    let new ← if e then
        match tmp with
        | none => pure true
        | some t => do
          let x ← atC u i
          let y ← atC u t
          pure (decide (x ≠ y))
      else pure false
    if new then countLoop u n (i + 1) (card + 1) (some i) else countLoop u n (i + 1) card tmp
  else .ok card
termination_by n - i

/-- The second loop of `intersect`, eopsisimul.cpp:126-130.  It has no bound on `i`; an access behind `listUnion` ends it here.  `k` is
the number of elements written; only they are listed in `res` (the rest of the array, up to `card`, is not yet assigned). -/
def fillLoop (u : List Int) (card : Nat) (i : Nat) (res : List Int) : C (List Int) :=
  if res.length < card then
    if h : i < u.length then do
      let e ← twin u i
      let x := u[i]
      let new ← if e then
          if res.length = 0 then pure true
          else do
            let y ← atC res (res.length - 1)
            pure (decide (x ≠ y))
        else pure false
      fillLoop u card (i + 1) (if new then res ++ [x] else res)
    else .error (.ub .outOfBounds)
  else .ok res
termination_by u.length - i

/-- `intersect`, eopsisimul.cpp:94-134; `*card` is the length of the result.  `qsort` is a parameter: it is given the comparison
function and the array. -/
def intersect (qsort : (Int → Int → Int) → List Int → List Int) (set1 : List Int) (card1 : Nat) (set2 : List Int) (card2 : Nat) :
    C (List Int) := do
  let u ← join set1 card1 set2 card2
  let u := qsort compare u
  let card ← countLoop u (card1 + card2) 1 0 none
  fillLoop u card 1 []

/-- `std::set::insert` -/
def setInsert (x : Int) : List Int → List Int
  | [] => [x]
  | y :: l => if x < y then x :: y :: l else if x = y then y :: l else y :: setInsert x l

/-- The loop of eopsisimul.cpp:146-149. -/
def insertLoop (int1 int2 : List Int) (n : Nat) (i : Nat) (set1 set2 : List Int) : C (List Int × List Int) :=
  if i < n then do
    let x ← atC int1 i
    let y ← atC int2 i
    insertLoop int1 int2 n (i + 1) (setInsert x set1) (setInsert y set2)
  else .ok (set1, set2)
termination_by n - i

/-- `checkIntersectionCorrectness`, eopsisimul.cpp:137-152 -/
def check (int1 : List Int) (n : Nat) (int2 : List Int) : C Bool :=
  if n ≠ int2.length then .ok false
  else do
    let (set1, set2) ← insertLoop int1 int2 n 0 [] []
    pure (decide (set1 = set2))

/-- The loop of eopsisimul.cpp:180-182, with the values that `NTL::RandomBits_ZZ` will return; `none`: it needs more of them.  Also
returned: the values that are left. -/
def drawLoop (n : Nat) (set : List Int) : List Int → Option (List Int × List Int)
  | [] => none
  | x :: draws =>
    let set := setInsert x set
    if set.length < n then drawLoop n set draws else some (set, draws)

/-- `randomData`, eopsisimul.cpp:163-191: the array and the draws that are left.  `data` has `n` elements; the copying loop
(185-188) writes one element per element of the set. -/
def randomData (n : Nat) (draws : List Int) : Option (C (List Int) × List Int) :=
  if n = 0 then some (.ok [], draws)
  else match drawLoop n [] draws with
    | none => none
    | some (set, draws) => some (if set.length ≤ n then .ok set else .error (.ub .outOfBounds), draws)

end EoPsi.Simul
