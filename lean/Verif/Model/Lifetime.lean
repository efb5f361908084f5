import Verif.Model.Protocol

/-! # The end of objects: destructors

What is not modelled: a destroyed object's address may be used again by a new object of the same kind.  Here, a name of a party, message or
table becomes free when the object is destroyed; any use of a pointer to a destroyed object is the fault `wrongType`, unless a new object
has been created under the same name. -/

namespace EoPsi

variable {p : Nat}

/-- `~EOPSIClient()`, eopsiclient.cpp:54-60 (the blinded data are released; the generator `zzpprf` belongs to the object alone),
`~EOPSIServer()`, eopsiserver.cpp:18-20, `~EOPSIParty()`, eopsiparty.cpp:23-24 (nothing).  The message members of the object end with it. -/
def destroyParty (r : Ref) : M p Unit := do
  let P ← M.party r
  match P.cls with
  | .client => M.deleteMat P.blindedData
  | .server => pure ()
  M.modify (fun w => { w with party := upd w.party r none })

/-- `~EOPSIMessage()`, eopsimsg.cpp:16-17: the data are not released. -/
def destroyMsg (k : Nat) : M p Unit := fun w =>
  match w.msg k with
  | some _ => .ok () { w with msg := upd w.msg k none }
  | none => .fault (.ub .wrongType)

/-- `~HashBuckets()`, hashbuckets.hpp:99-104: everything it releases belongs to the table alone. -/
def destroyTable (k : Nat) : M p Unit := fun w =>
  match w.table k with
  | some _ => .ok () { w with table := upd w.table k none }
  | none => .fault (.ub .wrongType)

end EoPsi
