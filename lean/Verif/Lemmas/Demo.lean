import Verif.Spec.Protocol
import Verif.Spec.Codec
import Verif.Spec.HashBuckets
import Verif.Props.Poly
import Verif.Props.Prf

/-! # Small concrete histories, for the non-vacuity examples -/

namespace EoPsi.Demo

/-- ids -/
def cloudId : Id := [67]
def aliceId : Id := [65]
def bobId : Id := [66]
/-- Three parties (0: cloud, 1: Alice, 2: Bob) that have authenticated each other, and a message 0. -/
def setup : List (Call 13) :=
  [.newServer 0 13 1 1 3 cloudId, .newClient 1 0 13 1 1 3 aliceId 258, .newClient 2 1 13 1 1 3 bobId 259,
   .authenticate 0 1, .authenticate 0 2, .authenticate 1 0, .authenticate 1 2, .authenticate 2 0, .authenticate 2 1,
   .newMsg 0]
/-- The message 0 with a type, an id and data. -/
def fill (t : MsgType) (id : Id) (data : List Byte) : List (Call 13) :=
  [.msgType 0 t, .msgPartyId 0 id, .msgData 0 (.bytes data) data.length]

/-- some factoring procedure -/
noncomputable def F : Factoring 13 := Classical.choice exists_factoring
/-- the digest of the examples -/
def D : Digest := ZZPRF.demoDigest

/-- A check on the final state. -/
def okAnd {p : Nat} (x : C (World p)) (f : World p → Bool) : Bool := match x with | .ok w => f w | _ => false

/-- A check on an outcome. -/
def faults {p : Nat} {α : Type} (o : Out p α) (f : Fault) : Bool := match o with | .fault g => decide (g = f) | _ => false

theorem faults_eq {p : Nat} {α : Type} {o : Out p α} {f : Fault} (h : faults o f = true) : o = .fault f := by
  cases o with
  | fault g => simp only [faults, decide_eq_true_eq] at h; rw [h]
  | ok a w => simp [faults] at h
  | thrown e w => simp [faults] at h

/-- A check on a party. -/
def partyAnd (r : Ref) (f : Party 13 → Bool) (w : World 13) : Bool :=
  match w.party r with | some P => f P | none => false

theorem partyAnd_ex {r : Ref} {f : Party 13 → Bool} {w : World 13} (h : partyAnd r f w = true) :
    ∃ P, w.party r = some P ∧ f P = true := by
  unfold partyAnd at h
  split at h
  · exact ⟨_, by assumption, h⟩
  · simp at h

theorem reach {ntl rnd : List Nat} {cs : List (Call 13)} {f : World 13 → Bool}
    (h : okAnd ((World.init ntl rnd).runCalls D F 4 cs) f = true) : ∃ w, w.Reachable D F 4 ∧ f w = true := by
  unfold okAnd at h
  split at h
  · exact ⟨_, ⟨_, _, _, by assumption⟩, h⟩
  · simp at h

/-- A check of the hypotheses of a delivery. -/
def incoming (r : Ref) (m : MRef) (s : Ref) (f : Party 13 → Msg → Party 13 → World 13 → Bool) (w : World 13) : Bool :=
  match w.party r, w.msgAt m, w.party s with
  | some P, some μ, some S => decide (μ.partyId ≠ P.id ∧ P.getPartyById μ.partyId = some s) && f P μ S w
  | _, _, _ => false

theorem incoming_ex {r s : Ref} {m : MRef} {f : Party 13 → Msg → Party 13 → World 13 → Bool} {w : World 13}
    (h : incoming r m s f w = true) : ∃ P μ S, Incoming w r m P μ s S ∧ f P μ S w = true := by
  unfold incoming at h
  split at h
  · rename_i P μ S hP hμ hS
    simp only [Bool.and_eq_true, decide_eq_true_eq] at h
    exact ⟨P, μ, S, ⟨hP, hμ, h.1.1, h.1.2, hS⟩, h.2⟩
  · simp at h

theorem reachIncoming {ntl rnd : List Nat} {cs : List (Call 13)} {r s : Ref} {m : MRef}
    {f : Party 13 → Msg → Party 13 → World 13 → Bool}
    (h : okAnd ((World.init ntl rnd).runCalls D F 4 cs) (incoming r m s f) = true) :
    ∃ w P μ S, w.Reachable D F 4 ∧ Incoming w r m P μ s S ∧ f P μ S w = true := by
  obtain ⟨w, hw, h⟩ := reach h
  obtain ⟨P, μ, S, h1, h2⟩ := incoming_ex h
  exact ⟨w, P, μ, S, hw, h1, h2⟩

/-- a one-byte hash of field elements -/
def alg : HashAlg (ZMod 13) := { hash := fun x _ => .ok [UInt8.ofNat x.val], size := 1 }

theorem alg_computes : alg.Computes (fun x => [UInt8.ofNat x.val]) := ⟨fun _ => rfl, fun _ => rfl, by decide⟩

/-- Two clients that share a table of two buckets of load 3; the second one has length 3. -/
def twoClients : List (Call 13) :=
  [.newTable 0 2 3 (some alg), .newClient 1 0 13 2 1 3 aliceId 258, .newClient 2 0 13 3 1 3 bobId 259]

theorem twoClients_ok : ∃ w t, (World.init [] [5]).runCalls D F 4 twoClients = .ok w ∧
    w.party 1 = some (Party.newClient 0 13 2 1 3 aliceId 258) ∧ w.party 2 = some (Party.newClient 0 13 3 1 3 bobId 259) ∧
    w.table 0 = some t ∧ t.alg.map Prod.fst = some alg ∧ t.k = 2 ∧ w.crand = [5] :=
  ⟨_, _, rfl, rfl, rfl, rfl, rfl, rfl, rfl⟩

theorem next_step {ntl rnd : List Nat} {cs : List (Call 13)} {c : Call 13} {w : World 13} {f : World 13 → Bool}
    (h : (World.init ntl rnd).runCalls D F 4 cs = .ok w)
    (h' : okAnd ((World.init ntl rnd).runCalls D F 4 (cs ++ [c])) f = true) : ∃ w', w.step D F 4 c = .ok w' ∧ f w' = true := by
  have key : ∀ (cs : List (Call 13)) (v : World 13), v.runCalls D F 4 cs = .ok w →
      v.runCalls D F 4 (cs ++ [c]) = (w.step D F 4 c >>= fun w' => .ok w') := by
    intro cs
    induction cs with
    | nil => intro v hv; cases hv; rfl
    | cons d ds ih =>
      intro v hv
      simp only [World.runCalls] at hv
      simp only [List.cons_append, World.runCalls]
      cases hd : v.step D F 4 d with
      | error e => rw [hd] at hv; exact absurd hv (by simp [bind, Except.bind])
      | ok v' => rw [hd] at hv; exact ih v' hv
  rw [key cs _ h] at h'
  cases hs : w.step D F 4 c with
  | error e => rw [hs] at h'; simp [bind, Except.bind, okAnd] at h'
  | ok w' => rw [hs] at h'; exact ⟨w', rfl, h'⟩

end EoPsi.Demo
