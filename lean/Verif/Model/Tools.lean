import Verif.Model.Poly
import Verif.Model.Prf
import Verif.Model.Bench
import Mathlib.Data.Nat.Digits.Defs
import Mathlib.Analysis.SpecialFunctions.Pow.Real

/-!
# The command line tools, src/test/{cherpars,zzrndgen,hbtest,bptest,polyfact}.cpp, and two small library classes

Only the computations are modelled; argument parsing, messages on the terminal and memory exhaustion are not.
-/

namespace EoPsi

/-! ## cherpars.cpp -/

namespace Cher

/-- What the search ends with: `h` (the size of the table), the last probability, and the variable `mu` that is printed; also the
value `used` of `mu` for which they have been computed. -/
structure Result where
  h : Real
  currentP : Real
  mu : Nat
  used : Nat

/-- The number of buckets for mean load `mu`, cherpars.cpp:88.  `double` is modelled by the reals. -/
noncomputable def size (n mu : Nat) : Real := (⌈(n : Real) / (mu : Real)⌉ : Int)

/-- The bound for mean load `mu`, cherpars.cpp:87-91. -/
noncomputable def bound (l n mu : Nat) : Real :=
  let sigma := (l : Real) / (mu : Real) - 1
  let top := (Real.exp 1) ^ sigma
  let down := (1 + sigma) ^ (1 + sigma)
  size n mu * (top / down) ^ (mu : Real)

open Classical in
/-- The loop of cherpars.cpp:86-93, for `mu + 1`: `mu` is decremented before the condition is evaluated. -/
noncomputable def loop (l n : Nat) (targetP : Real) : Nat → Result
  | 0 => ⟨size n 1, bound l n 1, 0, 1⟩
  | mu + 1 =>
    if bound l n (mu + 2) > targetP then loop l n targetP mu else ⟨size n (mu + 2), bound l n (mu + 2), mu + 1, mu + 2⟩

/-- cherpars.cpp:85-93; `n` and `targetP` after lines 83-84, `l ≥ 1`. -/
noncomputable def search (l n : Nat) (targetP : Real) : Result := loop l n targetP (l - 1)

end Cher

/-! ## zzrndgen.cpp and hbtest.cpp: a file of numbers -/

namespace NumFile

/-- A number in decimal notation, as written by `<<`. -/
def decimal (n : Nat) : List Char :=
  if n = 0 then ['0'] else ((Nat.digits 10 n).reverse).map (fun d => Char.ofNat (d + 48))

def isDigit (c : Char) : Bool := decide (48 ≤ c.toNat ∧ c.toNat ≤ 57)
/-- White space of the "C" locale. -/
def isSpace (c : Char) : Bool := decide (c.toNat = 32 ∨ (9 ≤ c.toNat ∧ c.toNat ≤ 13))
def value (ds : List Char) : Nat := ds.foldl (fun a c => 10 * a + (c.toNat - 48)) 0

/-- `>>` of an unsigned number (`size_t` or `NTL::ZZ`): the number and the rest of the file; `none` if there is no digit.  Signs are
not modelled, nor is the range of `size_t`. -/
def read (f : List Char) : Option (Nat × List Char) :=
  let f := f.dropWhile isSpace
  let ds := f.takeWhile isDigit
  if ds = [] then none else some (value ds, f.dropWhile isDigit)

/-- The loop of zzrndgen.cpp:81-87: the number generated is written before `i % (n / 10)` is computed. -/
def genLoop (D : Digest) (n bits : Nat) (i : Nat) (s : ZZPRF) (rnd : List Nat) (out : List Char) : C (List Char) :=
  if i < n then do
    let (v, s, rnd) ← s.generateAuto D rnd i bits
    let out := out ++ decimal v ++ ['\n']
    if n / 10 = 0 then .error (.ub .divByZero) else genLoop D n bits (i + 1) s rnd out
  else .ok out
termination_by n - i

/-- The file that `zzrndgen` writes, zzrndgen.cpp:76-88; `rnd` are the results of `rand()`. -/
def zzrndgen (D : Digest) (n bits : Nat) (rnd : List Nat) : C (List Char) := do
  let out ← genLoop D n bits 0 ZZPRF.new rnd (decimal bits ++ ['\n'] ++ (decimal n ++ ['\n']))
  pure (out ++ ['\n'])

/-- The loop of hbtest.cpp:134-136: `n` numbers, each reduced modulo `2^bits` (`NTL::ZZ_p`). -/
def readLoop (m : Nat) : Nat → List Char → Option (List Nat)
  | 0, _ => some []
  | n + 1, f => do
    let (v, f) ← read f
    let vs ← readLoop m n f
    pure (v % m :: vs)

/-- What `hbtest` reads, hbtest.cpp:116-136: the bit size and the numbers. -/
def hbtest (f : List Char) : Option (Nat × List Nat) := do
  let (bits, f) ← read f
  let (n, f) ← read f
  let vs ← readLoop (2 ^ bits) n f
  pure (bits, vs)

end NumFile

/-! ## bptest.cpp -/

namespace BpTest

variable {p : Nat} [Fact p.Prime]

/-- The loop of bptest.cpp:266-268: `append(unknowns, zzpprf->generate(seed, j))`. -/
def unknownsLoop (D : Digest) (seed : ZMod p) (n : Nat) (j : Nat) (s : ZZpPRF p) (rnd : List Nat) (u : List (ZMod p)) :
    C (List (ZMod p) × ZZpPRF p × List Nat) :=
  if j < n then do
    let (v, s, rnd) ← s.generate D rnd seed j 0
    unknownsLoop D seed n (j + 1) s rnd (u ++ [v])
  else .ok (u, s, rnd)
termination_by n - j

/-- The inner loop of bptest.cpp:324-326 for one row. -/
def blindRow (D : Digest) (seed : ZMod p) (n : Nat) (i : Nat) (index : Nat) (s : ZZpPRF p) (rnd : List Nat) (row : List (ZMod p)) :
    C (List (ZMod p) × Nat × ZZpPRF p × List Nat) :=
  if i < n then do
    let x ← atC row i
    let (v, s, rnd) ← s.generate D rnd seed index 0
    blindRow D seed n (i + 1) (index + 1) s rnd (row.set i (x + v))
  else .ok (row, index, s, rnd)
termination_by n - i

/-- The outer loop of bptest.cpp:323-327. -/
def blindRows (D : Digest) (seed : ZMod p) (n : Nat) (index : Nat) (s : ZZpPRF p) (rnd : List Nat) :
    List (List (ZMod p)) → C (List (List (ZMod p)))
  | [] => .ok []
  | row :: rows => do
    let (row, index, s, rnd) ← blindRow D seed n 0 index s rnd row
    let rows ← blindRows D seed n index s rnd rows
    pure (row :: rows)

/-- bptest.cpp:264-327 (one thread): `SetLength(2*maxLoad + 1)` makes that many zeros and `append` adds behind them.  The object
`zzpprf` may have been used before (`conceal`, line 247).  `polynomials` are those of lines 255-257, `seed` the second seed
(line 321). -/
noncomputable def evaluations (D : Digest) (s : ZZpPRF p) (rnd : List Nat) (polynomials : List (ZpX p)) (maxLoad : Nat) (seed : ZMod p) :
    C (List (List (ZMod p))) := do
  let (u, s, rnd) ← unknownsLoop D 0 (2 * maxLoad + 1) 0 s rnd (List.replicate (2 * maxLoad + 1) 0)
  blindRows D seed (2 * maxLoad + 1) 0 s rnd (polynomials.map (fun f => u.map (fun x => f.eval x)))

end BpTest

/-! ## eopsimsg.cpp -/

/-- `EOPSIMessage` on its own (a data pointer that is not null is a number); the protocol model has messages with contents. -/
structure RawMsg where
  partyId : String
  type : Nat
  data : Option Nat
  len : Nat

namespace RawMsg

/-- `setData`, eopsimsg.cpp:40-47 -/
def setData (m : RawMsg) (data : Option Nat) (length : Nat) : RawMsg :=
  match data with
  | none => { m with data := none, len := 8 }
  | some d => { m with data := some d, len := length }

/-- `setPartyId`, eopsimsg.cpp:20-22 -/
def setPartyId (m : RawMsg) (id : String) : RawMsg := { m with partyId := id }
/-- `setType`, eopsimsg.cpp:30-32 -/
def setType (m : RawMsg) (type : Nat) : RawMsg := { m with type := type }

/-- The constructor, eopsimsg.cpp:10-13 -/
def new (data : Option Nat) (length : Nat) (type : Nat) : RawMsg := ((⟨"", 0, none, 0⟩ : RawMsg).setData data length).setType type

/-- The setters. -/
inductive Call
  | setData (data : Option Nat) (length : Nat) | setPartyId (id : String) | setType (type : Nat)

def call (m : RawMsg) : Call → RawMsg
  | .setData d n => m.setData d n
  | .setPartyId i => m.setPartyId i
  | .setType t => m.setType t

end RawMsg

/-! ## exception.cpp, outofboundex.cpp, protocolex.h -/

/-- `Exception` -/
structure ExcObj where
  message : String
  fatal : Bool
  exitCode : Int
  deriving DecidableEq

namespace ExcObj

/-- `handleFatality`, exception.cpp:55-60 -/
def handleFatality (e : ExcObj) : C ExcObj := if e.fatal then .error (.exit e.exitCode) else .ok e

/-- The constructor, exception.cpp:11-17; that of `ProtocolException` (protocolex.h) is the same. -/
def new (message : String) (fatal : Bool) (code : Int) : C ExcObj := handleFatality ⟨message, fatal, code⟩

/-- `OutOfBoundException`, outofboundex.cpp:11-20 -/
def outOfBound (message : String) (fatal : Bool) : C ExcObj := do
  let e ← new message false 1
  let e := { e with message :=
    if message = "" then "Did you try to insert or read an element out of allowed bound of some container?" else message }
  handleFatality { e with fatal := fatal }

/-- The setters, exception.cpp:25-27, 35-37, 45-47. -/
inductive Call
  | setMessage (m : String) | setFatal (b : Bool) | setExitCode (c : Int)

def call (e : ExcObj) : Call → ExcObj
  | .setMessage m => { e with message := m }
  | .setFatal b => { e with fatal := b }
  | .setExitCode c => { e with exitCode := c }

end ExcObj

end EoPsi
