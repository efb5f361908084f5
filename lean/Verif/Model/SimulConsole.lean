import Verif.Model.Console
import Verif.Model.SimulMain

/-! # `main` of the simulator with its output and its chronometer

`Model/SimulMain` a second time, with what is written to the terminal (by `main` and by the parties) and with the local variable `bm`
of `main` (eopsisimul.cpp:217).  Proved equal to `Model/SimulMain` up to terminal and clock (theorem C120_same_result). -/

namespace EoPsi

/-- A call of the chronometer that is a local variable: the next state of the variable. -/
def N.local {p : Nat} (clock : Nat → Int) (b : Bench) (c : Bench.Call) : N p Bench := fun w τ =>
  match b.call (clock τ.ticks) c with
  | .ok b' => .ok b' w { τ with ticks := τ.ticks + 1 }
  | .error f => .fault f τ

/-- The value of an expression that reads the local chronometer. -/
def N.value {p : Nat} {α : Type} (x : C α) : N p α := fun w τ =>
  match x with
  | .ok a => .ok a w τ
  | .error f => .fault f τ

namespace Simul.Console
variable {p : Nat} [Fact p.Prime]

/-- Outsourcing both sets, eopsisimul.cpp:381-408; `bm` is the state of the chronometer, the result is its new state. -/
noncomputable def outsourcing (clock : Nat → Int) (D : Digest) (F : Factoring p) (hw : Nat) (bits : Nat) (dataAlice dataBob : List Int) (bm : Bench) : N p Bench := do
  N.lift (M.setMsg 0 (fun μ => μ.setType .outsourcingData))
  N.lift (M.setMsg 1 (fun μ => μ.setType .outsourcingData))
  let A ← N.lift (M.party 1)
  N.lift (M.setMsg 0 (fun μ => μ.setPartyId A.id))
  let B ← N.lift (M.party 2)
  N.lift (M.setMsg 1 (fun μ => μ.setPartyId B.id))
  let bm ← N.local clock bm (.step "")
  EoPsi.Console.setRawData D hw 1 (some dataAlice) bits 1
  let bm ← N.local clock bm (.step "add-n-blind-A")
  EoPsi.Console.setRawData D hw 2 (some dataBob) bits 1
  let bm ← N.local clock bm (.step "add-n-blind-B")
  let t ← N.value (bm.benchmarkAt "add-n-blind-A")
  N.emit (.blindingTime "A" t)
  let t ← N.value (bm.benchmarkAt "add-n-blind-B")
  N.emit (.blindingTime "B" t)
  let A ← N.lift (M.party 1)
  N.lift (M.setMsg 0 (fun μ => μ.setData A.blindedData (A.degree * A.length)))
  let B ← N.lift (M.party 2)
  N.lift (M.setMsg 1 (fun μ => μ.setData B.blindedData (B.degree * B.length)))
  let bm ← N.local clock bm (.step "eopsi-begin")
  N.catchP (do
    EoPsi.Console.send clock D F 1 0 (some (.user 0))
    EoPsi.Console.send clock D F 2 0 (some (.user 1))) (fun _ => N.lift (M.fail (.exit 2)))
  let bm ← N.local clock bm (.step "outsourcing")
  let t ← N.value (bm.benchmarkAt "outsourcing")
  N.emit (.outsourcingTime t)
  pure bm

/-- Bob's request, eopsisimul.cpp:432-458.  The result is the pointer `data` and the chronometer.  (The output and the chronometer calls inside the `try` block come
before the call that can throw and cannot throw themselves; they are written before the block.) -/
noncomputable def request (clock : Nat → Int) (D : Digest) (F : Factoring p) (bm : Bench) : N p (Ptr × Bench) := do
  N.lift (M.setMsg 2 (fun μ => μ.setType .clientRequest))
  let B ← N.lift (M.party 2)
  N.lift (M.setMsg 2 (fun μ => μ.setPartyId B.id))
  let data := clientRequestData B.id B.secret
  let a ← N.lift (M.alloc (.bytes data))
  N.lift (M.setMsg 2 (fun μ => μ.setData (some a) data.length))
  let bob ← N.idOf 2
  let alice ← N.idOf 1
  N.emit (.sending bob alice)
  let bm ← N.local clock bm (.step "comp-req")
  let t ← N.value (bm.benchmarkAt "comp-req")
  N.emit (.requestTime t)
  N.catchP (EoPsi.Console.send clock D F 2 1 (some (.user 2))) (fun _ => N.lift (M.fail (.exit 2)))
  let bm ← N.local clock bm (.step "the-end")
  pure (some a, bm)

/-- `main` after the authentication, eopsisimul.cpp:366-491. -/
noncomputable def rest (clock : Nat → Int) (D : Digest) (F : Factoring p) (hw : Nat) (qsort : (Int → Int → Int) → List Int → List Int) (prm : Params) : N p Bool := do
  -- lines 366-379
  let bm ← N.local clock Bench.new .start
  let common ← N.lift (drawData prm.r prm.plainSetBits)
  let bm ← N.local clock bm (.step "min-cap")
  let ownA ← N.lift (drawData (prm.n - prm.r) prm.plainSetBits)
  let dataAlice ← N.lift (M.liftC (join common prm.r ownA (prm.n - prm.r)))
  let bm ← N.local clock bm (.step "set-A")
  let ownB ← N.lift (drawData (prm.n - prm.r) prm.plainSetBits)
  let dataBob ← N.lift (M.liftC (join common prm.r ownB (prm.n - prm.r)))
  let bm ← N.local clock bm (.step "set-B")
  let t ← N.value (bm.benchmarkAt "min-cap")
  N.emit (.generatingTime "common data" t)
  let t ← N.value (bm.benchmarkAt "set-A")
  N.emit (.generatingTime "A" t)
  let t ← N.value (bm.benchmarkAt "set-B")
  N.emit (.generatingTime "B" t)
  -- lines 381-408
  let bm ← outsourcing clock D F hw prm.plainSetBits dataAlice dataBob bm
  -- lines 416-426
  let bm ← N.local clock bm (.step "")
  let cap ← N.lift (M.liftC (intersect qsort dataAlice prm.n dataBob prm.n))
  let bm ← N.local clock bm (.step "plain-cap")
  N.emit (.expectedSize cap.length)
  -- lines 432-458
  let (data, bm) ← request clock D F bm
  -- lines 461-468
  let B ← N.lift (M.party 2)
  let verdict ← N.lift (M.liftC (check cap cap.length (B.setcap.map (fun v : Nat => (v : Int)))))
  N.emit (.verdict verdict)
  let bm ← N.local clock bm (.stop "check-result")
  -- lines 471-473
  let t ← N.value (bm.benchmarkAt "plain-cap")
  N.emit (.plainTime t)
  let e ← N.value (bm.cumulativeAt "the-end" true)
  let b ← N.value (bm.cumulativeAt "eopsi-begin" true)
  N.emit (.protocolTime (e - b))
  let t ← N.value (bm.benchmarkAt "check-result")
  N.emit (.checkingTime t)
  -- lines 475-489
  N.lift (cleanUp data)
  pure verdict

/-- `main`, eopsisimul.cpp:289-491. -/
noncomputable def main (clock : Nat → Int) (D : Digest) (F : Factoring p) (hw : Nat) (alg : HashAlg (ZMod p))
    (qsort : (Int → Int → Int) → List Int → List Int) (prm : Params) : N p Bool := do
  -- lines 290-297
  if prm.r > prm.n then N.lift (M.fail (.exit 1))
  else if numBits p < prm.plainSetBits then N.lift (M.fail (.exit 1))
  else do
    N.lift (M.newMsg 0)
    N.lift (M.newMsg 1)
    N.lift (M.newMsg 2)
    -- lines 331-343
    N.emit (.prime (numBits p))
    N.emit (.settings prm.length prm.maxLoad prm.plainSetBits (numBits p) prm.n prm.r)
    -- lines 347-361
    N.lift (create alg prm)
    N.lift (authentication [1, 2, 0] [1, 2, 0])
    rest clock D F hw qsort prm

end Simul.Console
end EoPsi
