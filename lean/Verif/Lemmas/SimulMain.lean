import Verif.Model.SimulMain
import Verif.Lemmas.Session
import Verif.Props.Exchange
import Verif.Props.Mask
import Verif.Props.Simul

/-! # The simulator's `main` -/

set_option linter.unusedSectionVars false

namespace EoPsi

open Simul

variable {p : Nat} [Fact p.Prime]

theorem M.run_setMsg {w : World p} {k : Nat} {μ : Msg} (g : Msg → Msg) (h : w.msg k = some μ) :
    M.setMsg k g w = .ok () (w.setMsg k (g μ)) := by
  unfold M.setMsg World.setMsg; rw [h]

theorem M.bind_ok {α β : Type} {x : M p α} {a : α} {w w' : World p} (h : x w = .ok a w') (f : α → M p β) : (x >>= f) w = f a w' := by
  rw [M.run_bind, h]

theorem M.run_newMsg {w : World p} {k : Nat} (h : w.msg k = none) :
    M.newMsg k w = .ok () { w with msg := upd w.msg k (some Msg.new) } := by
  unfold M.newMsg; rw [h]

theorem M.run_newTable {w : World p} {k : Nat} {t : HashBuckets (ZMod p)} (h : w.table k = none) :
    M.newTable k t w = .ok () { w with table := upd w.table k (some t) } := by
  unfold M.newTable; rw [h]

theorem M.run_newParty {w : World p} {r : Ref} {P : Party p} (h : w.party r = none) :
    M.newParty r P w = .ok () { w with party := upd w.party r (some P) } := by
  unfold M.newParty; rw [h]

theorem M.run_authenticate {w : World p} {r s : Ref} {P Q : Party p} (hQ : w.party s = some Q) (hP : w.party r = some P) :
    authenticate r s w = .ok () { w with party := upd w.party r (some (P.authenticate s Q.id)) } := by
  unfold authenticate
  rw [M.run_bind, M.run_party hQ]
  exact M.run_setParty _ hP

theorem step_ok {D : Digest} {F : Factoring p} {hw : Nat} {w w' : World p} {c : Call p} (h : c.run D F hw w = .ok () w') :
    w.step D F hw c = .ok w' := by
  unfold World.step; rw [h]

namespace Simul

/-- Alice after the authentication. -/
def alice (p : Nat) (prm : Params) : Party p :=
  { Party.newClient 0 p prm.length prm.maxLoad (2 * prm.maxLoad + 1) aliceName (zzFromBytes [0, 0, 2]) with
    parties := [(bobName, 2), (cloudName, 0)] }
/-- Bob after the authentication. -/
def bob (p : Nat) (prm : Params) : Party p :=
  { Party.newClient 1 p prm.length prm.maxLoad (2 * prm.maxLoad + 1) bobName (zzFromBytes [0, 0, 1]) with
    parties := [(aliceName, 1), (cloudName, 0)] }
/-- The cloud after the authentication. -/
def cloud (p : Nat) (prm : Params) : Party p :=
  { Party.newServer p prm.length prm.maxLoad (2 * prm.maxLoad + 1) cloudName with
    parties := [(aliceName, 1), (bobName, 2)] }

/-- The state after the authentication. -/
def ready (t : HashBuckets (ZMod p)) (prm : Params) (ntl crand : List Nat) : World p where
  party := fun r => match r with
    | 0 => some (cloud p prm) | 1 => some (alice p prm) | 2 => some (bob p prm) | _ => none
  cell := fun _ => none
  next := 0
  msg := fun k => match k with | 0 => some Msg.new | 1 => some Msg.new | 2 => some Msg.new | _ => none
  table := fun k => match k with | 0 => some t | 1 => some t | _ => none
  ntl := ntl
  crand := crand

/-- The same calls as a history. -/
def setupCalls (p : Nat) (alg : HashAlg (ZMod p)) (prm : Params) : List (Call p) :=
  [.newMsg 0, .newMsg 1, .newMsg 2, .newTable 0 prm.length prm.maxLoad (some alg), .newTable 1 prm.length prm.maxLoad (some alg),
   .newClient 1 0 p prm.length prm.maxLoad (2 * prm.maxLoad + 1) aliceName (zzFromBytes [0, 0, 2]),
   .newClient 2 1 p prm.length prm.maxLoad (2 * prm.maxLoad + 1) bobName (zzFromBytes [0, 0, 1]),
   .newServer 0 p prm.length prm.maxLoad (2 * prm.maxLoad + 1) cloudName,
   .authenticate 1 2, .authenticate 1 0, .authenticate 2 1, .authenticate 2 0, .authenticate 0 1, .authenticate 0 2]

theorem world_ext {w w' : World p} (h1 : w.party = w'.party) (h2 : w.cell = w'.cell) (h3 : w.next = w'.next) (h4 : w.msg = w'.msg)
    (h5 : w.table = w'.table) (h6 : w.ntl = w'.ntl) (h7 : w.crand = w'.crand) : w = w' := by
  cases w; cases w'; simp only at *; subst h1 h2 h3 h4 h5 h6 h7; rfl

theorem authenticate_id (P : Party p) (r : Ref) (x : Id) : (P.authenticate r x).id = P.id := by
  unfold Party.authenticate
  by_cases h : x ≠ P.id
  · rw [if_pos h]
  · rw [if_neg h]

theorem run_auth {w : World p} {r s : Ref} {P : Party p} {x : Id} (hP : w.party r = some P) (hx : (w.party s).map (·.id) = some x) :
    EoPsi.authenticate r s w = .ok () { w with party := upd w.party r (some (P.authenticate s x)) } := by
  obtain ⟨Q, hQ, rfl⟩ := Option.map_eq_some_iff.1 hx
  exact M.run_authenticate hQ hP

theorem upd_ids {f : Ref → Option (Party p)} {r : Ref} {P : Party p} (hP : f r = some P) (s r' : Ref) (x : Id) :
    (upd f r (some (P.authenticate r' x)) s).map (·.id) = (f s).map (·.id) := by
  by_cases h : s = r
  · subst h; rw [upd_same, hP, Option.map_some, Option.map_some, authenticate_id]
  · rw [upd_ne _ _ h]

theorem auth_row {w : World p} {i : Ref} {P : Party p} {x0 x1 x2 : Id} (h : w.party i = some P) (h0 : (w.party 0).map (·.id) = some x0)
    (h1 : (w.party 1).map (·.id) = some x1) (h2 : (w.party 2).map (·.id) = some x2) : authenticateAll i [1, 2, 0] w = .ok () { w with
        party := upd w.party i (some (((P.authenticate 1 x1).authenticate 2 x2).authenticate 0 x0)) } := by
  unfold authenticateAll
  refine (M.bind_ok (run_auth h h1) _).trans ?_
  unfold authenticateAll
  refine (M.bind_ok (run_auth (P := P.authenticate 1 x1) (upd_same _ _ _) ((upd_ids h ..).trans h2)) _).trans ?_
  simp only [upd_upd]
  unfold authenticateAll
  refine (M.bind_ok (run_auth (P := (P.authenticate 1 x1).authenticate 2 x2) (upd_same _ _ _)
    (x := x0) ?_) _).trans ?_
  · refine Eq.trans ?_ h0
    by_cases hi : (0 : Ref) = i
    · subst hi; simp only [upd_same, Option.map_some, authenticate_id, h]
    · simp only [upd_ne _ _ hi]
  · simp only [upd_upd]; rfl

/-- The state after the constructors. -/
def created (prm : Params) (t : HashBuckets (ZMod p)) (w : World p) : World p :=
  { w with
    table := upd (upd w.table 0 (some t)) 1 (some t)
    party := upd (upd (upd w.party 1 (some (Party.newClient 0 p prm.length prm.maxLoad (2 * prm.maxLoad + 1) aliceName (zzFromBytes [0, 0, 2]))))
      2 (some (Party.newClient 1 p prm.length prm.maxLoad (2 * prm.maxLoad + 1) bobName (zzFromBytes [0, 0, 1]))))
      0 (some (Party.newServer p prm.length prm.maxLoad (2 * prm.maxLoad + 1) cloudName)) }

theorem setup_run {alg : HashAlg (ZMod p)} {prm : Params} {t : HashBuckets (ZMod p)}
    (ht : HashBuckets.new prm.length prm.maxLoad (some alg) = .ok t) (ntl crand : List Nat) :
    (do M.newMsg 0; M.newMsg 1; M.newMsg 2; create alg prm; authentication [1, 2, 0] [1, 2, 0] : M p Unit) (World.init ntl crand) =
      .ok () (ready t prm ntl crand) := by
  refine (M.bind_ok (M.run_newMsg rfl) _).trans ?_
  refine (M.bind_ok (M.run_newMsg rfl) _).trans ?_
  refine (M.bind_ok (M.run_newMsg rfl) _).trans ?_
  have e1 : ∀ w : World p, w.table 0 = none → w.table 1 = none → w.party 0 = none → w.party 1 = none → w.party 2 = none →
      (create alg prm) w = .ok () (created prm t w) := by
    intro w h1 h2 h3 h4 h5
    unfold create
    rw [ht]
    simp only [M.run_bind, M.run_liftC_ok, M.newTable, M.newParty, h1, h2, h3, h4, h5, upd_ne _ _ Nat.one_ne_zero,
      upd_ne _ _ (show (2:Nat) ≠ 1 by decide), upd_ne _ _ (show (0:Nat) ≠ 2 by decide), upd_ne _ _ (show (0:Nat) ≠ 1 by decide)]
    rfl
  refine (M.bind_ok (e1 _ rfl rfl rfl rfl rfl) _).trans ?_
  refine (M.bind_ok (auth_row rfl rfl rfl rfl) _).trans ?_
  refine (M.bind_ok (auth_row rfl rfl rfl rfl) _).trans ?_
  refine (M.bind_ok (auth_row rfl rfl rfl rfl) _).trans ?_
  refine congrArg (Out.ok ()) (world_ext ?_ rfl rfl ?_ ?_ rfl rfl)
  · funext r
    match r with
    | 0 => rfl
    | 1 => rfl
    | 2 => rfl
    | _ + 3 => rfl
  · funext r
    match r with
    | 0 => rfl
    | 1 => rfl
    | 2 => rfl
    | _ + 3 => rfl
  · funext r
    match r with
    | 0 => rfl
    | 1 => rfl
    | _ + 2 => rfl

theorem setup_calls {alg : HashAlg (ZMod p)} {prm : Params} {t : HashBuckets (ZMod p)} (D : Digest) (F : Factoring p) (hw : Nat)
    (ht : HashBuckets.new prm.length prm.maxLoad (some alg) = .ok t) (ntl crand : List Nat) :
    (World.init ntl crand).runCalls D F hw (setupCalls p alg prm) = .ok (ready t prm ntl crand) := by
  unfold setupCalls
  have tab : ∀ (w : World p) (k : Nat), w.table k = none → w.step D F hw (.newTable k prm.length prm.maxLoad (some alg)) =
      .ok { w with table := upd w.table k (some t) } := by
    intro w k h
    refine step_ok ?_
    change (M.liftC (HashBuckets.new prm.length prm.maxLoad (some alg)) >>= fun h => M.newTable k h) w = _
    rw [ht]
    exact M.run_newTable h
  have par : ∀ (w : World p) (k : Nat) (P : Party p) (c : Call p), c.run D F hw = M.newParty k P → w.party k = none →
      w.step D F hw c = .ok { w with party := upd w.party k (some P) } := by
    intro w k P c hc h
    refine step_ok ?_
    rw [hc]; exact M.run_newParty h
  have msg : ∀ (w : World p) (k : Nat), w.msg k = none → w.step D F hw (.newMsg k) = .ok { w with msg := upd w.msg k (some Msg.new) } :=
    fun w k h => step_ok (M.run_newMsg h)
  have aut : ∀ (w : World p) (r s : Ref) (P Q : Party p), w.party s = some Q → w.party r = some P →
      w.step D F hw (.authenticate r s) = .ok { w with party := upd w.party r (some (P.authenticate s Q.id)) } :=
    fun w r s P Q h1 h2 => step_ok (M.run_authenticate h1 h2)
  rw [runCalls_step (msg _ _ rfl), runCalls_step (msg _ _ rfl), runCalls_step (msg _ _ rfl), runCalls_step (tab _ _ rfl),
    runCalls_step (tab _ _ rfl), runCalls_step (par _ _ _ _ rfl rfl), runCalls_step (par _ _ _ _ rfl rfl),
    runCalls_step (par _ _ _ _ rfl rfl), runCalls_step (aut _ _ _ _ _ rfl rfl), runCalls_step (aut _ _ _ _ _ rfl rfl),
    runCalls_step (aut _ _ _ _ _ rfl rfl), runCalls_step (aut _ _ _ _ _ rfl rfl), runCalls_step (aut _ _ _ _ _ rfl rfl),
    runCalls_step (aut _ _ _ _ _ rfl rfl)]
  refine congrArg Except.ok (world_ext ?_ rfl rfl ?_ ?_ rfl rfl)
  · funext r
    match r with
    | 0 => rfl
    | 1 => rfl
    | 2 => rfl
    | _ + 3 => rfl
  · funext r
    match r with
    | 0 => rfl
    | 1 => rfl
    | 2 => rfl
    | _ + 3 => rfl
  · funext r
    match r with
    | 0 => rfl
    | 1 => rfl
    | _ + 2 => rfl

theorem ready_reachable {alg : HashAlg (ZMod p)} {prm : Params} {t : HashBuckets (ZMod p)} (D : Digest) (F : Factoring p) (hw : Nat)
    (ht : HashBuckets.new prm.length prm.maxLoad (some alg) = .ok t) (ntl crand : List Nat) :
    (ready t prm ntl crand).Reachable D F hw := ⟨_, _, _, setup_calls D F hw ht ntl crand⟩

theorem ready_prepared {alg : HashAlg (ZMod p)} {d : ZMod p → List Byte} (ha : alg.Computes d) {prm : Params} {t : HashBuckets (ZMod p)}
    (D : Digest) (ht : HashBuckets.new prm.length prm.maxLoad (some alg) = .ok t) (hL : 0 < prm.length) (ntl crand : List Nat) :
    Prepared D (ready t prm ntl crand) 1 2 0 (alice p prm) (bob p prm) (cloud p prm) 0 1 2 alg d
      (points D (numBits p) (2 * prm.maxLoad + 1)) := by
  have hp0 : (p : Int) ≠ 0 := by exact_mod_cast (Fact.out : p.Prime).ne_zero
  have hpts : ∀ P : Party p, P.unknowns = [] → P.fieldsize = p → P.degree = 2 * prm.maxLoad + 1 →
      P.getUnknowns D P.degree = .ok (points D (numBits p) (2 * prm.maxLoad + 1)) := by
    intro P h1 h2 h3
    have := PointsOk.get_ok (D := D) (P := P) (Or.inl h1) (by rw [h2]; exact hp0)
    rw [this]; unfold Party.fieldbits; rw [h2, h3]
  refine ⟨⟨rfl, rfl, rfl, ⟨rfl, rfl⟩, ⟨rfl, rfl⟩, ⟨rfl, rfl⟩, by change aliceName ≠ bobName; decide, by change aliceName ≠ cloudName; decide,
    by change bobName ≠ cloudName; decide, by change NulFree aliceName; unfold NulFree; decide, by change NulFree bobName; unfold NulFree; decide,
    rfl, rfl, rfl, rfl, rfl, ?_, hp0, rfl, rfl, rfl, rfl, rfl, rfl, rfl, rfl, rfl, rfl, hL, Nat.succ_pos _⟩, rfl, ha, ⟨t, rfl, ht⟩, ⟨t, rfl, ht⟩,
    Nat.zero_ne_one, hpts _ rfl rfl rfl, hpts _ rfl rfl rfl, hpts _ rfl rfl rfl, ?_, ⟨?_, ?_, ?_⟩, by decide, ?_, rfl⟩
  · refine ⟨⟨rfl, _, rfl, rfl⟩, fun x c hx => Or.inl ?_⟩
    obtain ⟨h1, Q, h2, h3⟩ := hx
    change mapFind x [(bobName, 2), (cloudName, 0)] = some c at h1
    unfold mapFind at h1
    by_cases e : x = bobName
    · rw [if_pos e] at h1
      obtain rfl := Option.some.inj h1
      obtain rfl := Option.some.inj (show some (bob p prm) = some Q from h2)
      exact nomatch h3
    · rw [if_neg e] at h1
      unfold mapFind at h1
      by_cases e : x = cloudName
      · exact e
      · rw [if_neg e] at h1; exact nomatch h1
  · simp [points]; rfl
  · exact Option.some_ne_none _
  · exact Option.some_ne_none _
  · exact Option.some_ne_none _
  · change 2 ^ 8 ≤ ((zzFromBytes [0, 0, 1] : Nat) : Int) ∧ ((zzFromBytes [0, 0, 1] : Nat) : Int) < 2 ^ 24
    decide

/-! ## Outsourcing in the order of `main` -/

/-- with two message objects changed -/
def _root_.EoPsi.World.setMsgs (w : World p) (m : Nat → Option Msg) : World p := { w with msg := m }

theorem setRawData_setMsgs {D : Digest} {hw : Nat} {r : Ref} {l : Option (List Int)} {bits n : Nat} {w w' : World p}
    (h : setRawData D hw r l bits n w = .ok () w') (m : Nat → Option Msg) :
    setRawData D hw r l bits n (w.setMsgs m) = .ok () (w'.setMsgs m) ∧ w'.msg = w.msg := by
  cases l with
  | none => cases h; exact ⟨rfl, rfl⟩
  | some l =>
    cases l with
    | nil => cases h; exact ⟨rfl, rfl⟩
    | cons z zs =>
      rcases setRawData_cases D hw r z zs bits n w with ⟨f, hf⟩ | ⟨P, t, t', k, s, rnd, u, mm, hP, hT, hb⟩
      · rw [hf] at h; exact nomatch h
      · rw [setRawData_ok hP hT hb] at h
        obtain rfl := (Out.ok.inj h).2
        exact ⟨setRawData_ok (w := w.setMsgs m) hP hT hb, rfl⟩

theorem run_of_step_setRawData {D : Digest} {F : Factoring p} {hw : Nat} {r : Ref} {z : Int} {zs : List Int} {bits n : Nat} {w w' : World p}
    {P : Party p} (hP : w.party r = some P) (h : w.step D F hw (.setRawData r (some (z :: zs)) bits n) = .ok w') :
    setRawData D hw r (some (z :: zs)) bits n w = .ok () w' := by
  obtain ⟨hc, t, t', ⟨k, s, rnd⟩, u, m, hT, hb, rfl⟩ := step_setRawData_inv hP h
  rw [setRawData_ok hP hT hb]; rfl

/-- the server with one more entry -/
def _root_.EoPsi.World.storedAt (w : World p) (cloud : Ref) (S : Party p) (name : Id) (k : Nat) : World p :=
  { w with party := upd w.party cloud (some (S.storing name k)) }

theorem send_outsource {D : Digest} {F : Factoring p} {w : World p} {r cloud : Ref} {P S : Party p} {k : Nat} {μ : Msg} {len : Nat} {x : Ptr}
    (hP : w.party r = some P) (hS : w.party cloud = some S) (hμ : w.msg k = some (outMsg μ P.id x len)) (cS : S.cls = .server)
    (tP : P.type = .client) (hid : P.id ≠ S.id) (hk : S.getPartyById P.id = some r) :
    send D F r cloud (some (.user k)) w = .ok () (w.storedAt cloud S P.id k) := by
  have hin : Incoming w cloud (.user k) S (outMsg μ P.id x len) r P := ⟨hS, hμ, hid, hk, hP⟩
  change receiveN D F 3 cloud (.user k) _ = _
  rw [receiveN_eq hin.receiver, cS]
  simp only
  rw [serverReceive_eq hin, if_neg (by
    unfold Party.hasAuthenticated; rw [hk, tP]; exact Bool.noConfusion)]
  change handleOutsourcing cloud r (.user k) _ = _
  rw [handleOutsourcing_eq hin.receiver hin.object, if_neg (by rw [tP]; exact fun h => nomatch h)]
  rfl

theorem afterRaw_same (w : World p) (r : Ref) (P : Party p) (l : List Int) (bits : Nat) (h : HashBuckets (ZMod p)) (g : GenState p)
    (u : List (ZMod p)) (m : List (List (ZMod p))) : (w.afterRaw r P l bits h g u m).party r = some (P.withRaw l bits u w.next g) := by
  unfold World.afterRaw; exact upd_same _ _ _

theorem afterRaw_ne {w : World p} {r s : Ref} {P : Party p} {l : List Int} {bits : Nat} {h : HashBuckets (ZMod p)} {g : GenState p}
    {u : List (ZMod p)} {m : List (List (ZMod p))} (hs : s ≠ r) : (w.afterRaw r P l bits h g u m).party s = w.party s := by
  unfold World.afterRaw; exact upd_ne _ _ hs

theorem outsourced_party {w : World p} {c r : Ref} {S : Party p} {k : Nat} {μ : Msg} {x : Id} (h : r ≠ c) :
    (w.outsourced c S k μ x).party r = w.party r := upd_ne _ _ h
theorem outsourced_server (w : World p) (c : Ref) (S : Party p) (k : Nat) (μ : Msg) (x : Id) :
    (w.outsourced c S k μ x).party c = some (S.storing x k) := upd_same _ _ _
theorem outsourced_msg {w : World p} {c : Ref} {S : Party p} {k k' : Nat} {μ : Msg} {x : Id} (h : k' ≠ k) :
    (w.outsourced c S k μ x).msg k' = w.msg k' := upd_ne _ _ h

theorem run_setMsgs {w : World p} {m : Nat → Option Msg} {k : Nat} {μ : Msg} (g : Msg → Msg) (h : m k = some μ) :
    M.setMsg k g (w.setMsgs m) = .ok () (w.setMsgs (upd m k (some (g μ)))) := by
  unfold M.setMsg World.setMsgs; simp only [h]

theorem run_party_setMsgs {w : World p} {m : Nat → Option Msg} {r : Ref} {P : Party p} (h : w.party r = some P) :
    M.party r (w.setMsgs m) = .ok P (w.setMsgs m) := M.run_party (w := w.setMsgs m) h

theorem outsourcing_run {D : Digest} {F : Factoring p} {hw : Nat} {w w5 : World p} {A B S : Party p} {alg : HashAlg (ZMod p)}
    {d : ZMod p → List Byte} {u : List (ZMod p)} (h : Prepared D w 1 2 0 A B S 0 1 2 alg d u) {la lb : List Int} {bits : Nat}
    (ha : la ≠ []) (hb : lb ≠ [])
    (hpre : w.runCalls D F hw (beforeAsking 1 2 0 A B 0 1 2 la lb bits 1 1 (A.degree * A.length) (B.degree * B.length)) = .ok w5) :
    ∃ w4 μK B', outsourcing D F hw bits la lb w = .ok () w4 ∧ w4.msg 2 = some μK ∧ w4.party 2 = some B' ∧ B'.id = B.id ∧ B'.secret = B.secret ∧
      w5 = w4.asked 2 μK B.id B.secret := by
  obtain ⟨z, zs, rfl⟩ := List.exists_cons_of_ne_nil ha
  obtain ⟨y, ys, rfl⟩ := List.exists_cons_of_ne_nil hb
  obtain ⟨μA, hμA⟩ := Option.ne_none_iff_exists'.1 h.msgs.1
  obtain ⟨μB, hμB⟩ := Option.ne_none_iff_exists'.1 h.msgs.2.1
  obtain ⟨μK, hμK⟩ := Option.ne_none_iff_exists'.1 h.msgs.2.2
  unfold beforeAsking at hpre
  rw [List.append_assoc, List.append_assoc, List.cons_append, List.cons_append, List.nil_append] at hpre
  obtain ⟨w1, sA, hpre⟩ := runCalls_cons hpre
  obtain ⟨w2, sB, hpre⟩ := runCalls_cons hpre
  have rA := run_of_step_setRawData h.isA sA
  obtain ⟨-, tA, tA', gA, uA, mA, hTA, hbA, eA⟩ := step_setRawData_inv h.isA sA
  have p1 : w1.party 2 = some B := by rw [eA]; exact (afterRaw_ne (by decide)).trans h.isB
  have rB := run_of_step_setRawData p1 sB
  obtain ⟨-, tB, tB', gB, uB, mB, hTB, hbB, eB⟩ := step_setRawData_inv p1 sB
  let A' := A.withRaw (z :: zs) bits uA w.next gA
  let B' := B.withRaw (y :: ys) bits uB w1.next gB
  have a2 : w2.party 1 = some A' := by
    rw [eB]; refine (afterRaw_ne (by decide)).trans ?_
    rw [eA]; exact afterRaw_same ..
  have b2 : w2.party 2 = some B' := by rw [eB]; exact afterRaw_same ..
  have s2 : w2.party 0 = some S := by
    rw [eB]; refine (afterRaw_ne (by decide)).trans ?_
    rw [eA]; exact (afterRaw_ne (by decide)).trans h.isS
  have m2 : w2.msg = w.msg := by rw [eB]; change w1.msg = _; rw [eA]; rfl
  -- in the order of a session
  have o3 := outsource_run (D := D) (F := F) (hw := hw) (w := w2) (len := A.degree * A.length) a2 s2 (by rw [m2]; exact hμA) h.classS.1
    h.classA.2 h.idAS h.knowSA
  replace hpre := (runCalls_append _ _ o3).symm.trans hpre
  let w3 := w2.outsourced 0 S 0 (outMsg μA A.id A'.blindedData (A.degree * A.length)) A.id
  have o4 := outsource_run (D := D) (F := F) (hw := hw) (w := w3) (k := 1) (μ := μB) (P := B') (S := S.storing A.id 0) (r := 2) (cloud := 0)
    (len := B.degree * B.length)
    ((outsourced_party (by decide)).trans b2) (outsourced_server ..)
    ((outsourced_msg (by decide)).trans (by rw [m2]; exact hμB)) h.classS.1 h.classB.2 h.idBS h.knowSB
  have o4' := runCalls_append _ [.msgType 2 .clientRequest, .msgPartyId 2 B.id,
    .msgData 2 (.bytes (clientRequestData B.id B.secret)) (clientRequestData B.id B.secret).length] o4
  have hpre' := o4'.symm.trans hpre
  let w4 := w3.outsourced 0 (S.storing A.id 0) 1 (outMsg μB B.id B'.blindedData (B.degree * B.length)) B.id
  have k4 : w4.msg 2 = some μK := by
    refine (outsourced_msg (by decide)).trans ((outsourced_msg (by decide)).trans ?_)
    rw [m2]; exact hμK
  refine ⟨w4, μK, B', ?_, k4, (outsourced_party (by decide)).trans ((outsourced_party (by decide)).trans b2), rfl, rfl, ?_⟩
  swap
  · have e : (w4.runCalls D F hw [.msgType 2 .clientRequest, .msgPartyId 2 B.id,
        .msgData 2 (.bytes (clientRequestData B.id B.secret)) (clientRequestData B.id B.secret).length]) = .ok (w4.asked 2 μK B.id B.secret) := by
      rw [runCalls_step (step_msgType k4), runCalls_step (step_msgId (setMsg_msg _ _ _)), setMsg_setMsg,
        runCalls_step (step_msgBytes (setMsg_msg _ _ _))]
      unfold World.setMsg World.asked askMsg
      simp only [upd_upd]
      rfl
    exact (Except.ok.inj (e.symm.trans hpre')).symm
  -- in the order of `main`
  unfold outsourcing
  have z1 : ∀ (f : Nat → Option Msg) v, upd f 1 v 0 = f 0 := fun f v => upd_ne _ _ (by decide)
  have z0 : ∀ (f : Nat → Option Msg) v, upd f 0 v 1 = f 1 := fun f v => upd_ne _ _ (by decide)
  let n1 := upd w.msg 0 (some (μA.setType .outsourcingData))
  let n2 := upd n1 1 (some (μB.setType .outsourcingData))
  let n3 := upd n2 0 (some ((μA.setType .outsourcingData).setPartyId A.id))
  let n4 := upd n3 1 (some ((μB.setType .outsourcingData).setPartyId B.id))
  let n5 := upd n4 0 (some (outMsg μA A.id A'.blindedData (A'.degree * A'.length)))
  let n6 := upd n5 1 (some (outMsg μB B.id B'.blindedData (B'.degree * B'.length)))
  refine (M.bind_ok (w' := w.setMsgs n1) (run_setMsgs (w := w) _ hμA) _).trans ?_
  refine (M.bind_ok (w' := w.setMsgs n2) (run_setMsgs _ ((z0 _ _).trans hμB)) _).trans ?_
  refine (M.bind_ok (run_party_setMsgs h.isA) _).trans ?_
  refine (M.bind_ok (w' := w.setMsgs n3) (run_setMsgs _ ((z1 _ _).trans (upd_same _ _ _))) _).trans ?_
  refine (M.bind_ok (run_party_setMsgs h.isB) _).trans ?_
  refine (M.bind_ok (w' := w.setMsgs n4) (run_setMsgs _ ((z0 _ _).trans (upd_same _ _ _))) _).trans ?_
  refine (M.bind_ok (setRawData_setMsgs rA n4).1 _).trans ?_
  refine (M.bind_ok (setRawData_setMsgs rB n4).1 _).trans ?_
  refine (M.bind_ok (run_party_setMsgs a2) _).trans ?_
  refine (M.bind_ok (w' := w2.setMsgs n5) (run_setMsgs _ ((z1 _ _).trans (upd_same _ _ _))) _).trans ?_
  refine (M.bind_ok (run_party_setMsgs b2) _).trans ?_
  refine (M.bind_ok (w' := w2.setMsgs n6) (run_setMsgs _ ((z0 _ _).trans (upd_same _ _ _))) _).trans ?_
  have q0 : n6 0 = some (outMsg μA A'.id A'.blindedData (A'.degree * A'.length)) := (z1 _ _).trans (upd_same _ _ _)
  have q1 : n6 1 = some (outMsg μB B'.id B'.blindedData (B'.degree * B'.length)) := upd_same _ _ _
  have c1 := send_outsource (D := D) (F := F) (w := w2.setMsgs n6) (r := 1) (cloud := 0) (P := A') (S := S) (k := 0) a2 s2
    q0 h.classS.1 h.classA.2 h.idAS h.knowSA
  have c2 := send_outsource (D := D) (F := F) (w := (w2.setMsgs n6).storedAt 0 S A.id 0) (r := 2) (cloud := 0) (P := B') (S := S.storing A.id 0)
    (k := 1) (show upd w2.party 0 (some (S.storing A.id 0)) 2 = some B' by rw [upd_ne _ _ (by decide)]; exact b2)
    (show upd w2.party 0 (some (S.storing A.id 0)) 0 = _ from upd_same _ _ _)
    q1 h.classS.1 h.classB.2 h.idBS h.knowSB
  unfold M.catchP
  rw [M.bind_ok c1]
  have c3 : send D F 2 0 (some (MRef.user 1)) ((w2.setMsgs n6).storedAt 0 S A'.id 0) = _ := c2
  rw [c3]
  refine congrArg (Out.ok ()) (world_ext rfl rfl rfl ?_ rfl rfl rfl)
  change n6 = upd (upd w2.msg 0 _) 1 _
  rw [m2]
  funext k
  by_cases e1 : k = 1
  · subst e1; exact q1.trans (upd_same _ _ _).symm
  by_cases e0 : k = 0
  · subst e0; exact q0.trans ((z1 _ _).trans (upd_same _ _ _)).symm
  · refine Eq.trans (b := w.msg k) ?_ ?_
    · exact (upd_ne _ _ e1).trans ((upd_ne _ _ e0).trans ((upd_ne _ _ e1).trans ((upd_ne _ _ e0).trans ((upd_ne _ _ e1).trans (upd_ne _ _ e0)))))
    · exact ((upd_ne _ _ e1).trans (upd_ne _ _ e0)).symm

/-! ## The rest of `main` -/

theorem bind_assoc' {α β γ : Type} (x : M p α) (f : α → M p β) (g : β → M p γ) : (x >>= f) >>= g = x >>= fun a => f a >>= g := by
  funext w
  rw [M.run_bind, M.run_bind, M.run_bind]
  cases x w <;> rfl

/-- `main` after the authentication. -/
noncomputable def rest (D : Digest) (F : Factoring p) (hw : Nat) (qsort : (Int → Int → Int) → List Int → List Int) (prm : Params) : M p Bool := do
  let common ← drawData prm.r prm.plainSetBits
  let ownA ← drawData (prm.n - prm.r) prm.plainSetBits
  let dataAlice ← M.liftC (join common prm.r ownA (prm.n - prm.r))
  let ownB ← drawData (prm.n - prm.r) prm.plainSetBits
  let dataBob ← M.liftC (join common prm.r ownB (prm.n - prm.r))
  outsourcing D F hw prm.plainSetBits dataAlice dataBob
  let cap ← M.liftC (intersect qsort dataAlice prm.n dataBob prm.n)
  let data ← request D F
  let B ← M.party 2
  let verdict ← M.liftC (check cap cap.length (B.setcap.map (fun v : Nat => (v : Int))))
  cleanUp data
  pure verdict

theorem main_setup {D : Digest} {F : Factoring p} {hw : Nat} {alg : HashAlg (ZMod p)} {qsort : (Int → Int → Int) → List Int → List Int}
    {prm : Params} {t : HashBuckets (ZMod p)} (ht : HashBuckets.new prm.length prm.maxLoad (some alg) = .ok t) (hr : prm.r ≤ prm.n)
    (hb : prm.plainSetBits ≤ numBits p) (ntl crand : List Nat) :
    main D F hw alg qsort prm (World.init ntl crand) = rest D F hw qsort prm (ready t prm ntl crand) := by
  have e : main D F hw alg qsort prm = ((do M.newMsg 0; M.newMsg 1; M.newMsg 2; create alg prm; authentication [1, 2, 0] [1, 2, 0] : M p Unit) >>=
      fun _ => rest D F hw qsort prm) := by
    unfold main rest
    rw [if_neg (by omega), if_neg (by omega)]
    simp only [bind_assoc']
  rw [e, M.bind_ok (setup_run ht ntl crand)]

/-- What drawing gives, in terms of the supply only. -/
theorem drawData_inv {n bits : Nat} {ntl ntl1 crand crand1 : List Nat} {l : List Int}
    (h : drawData n bits (World.init (p := p) ntl crand) = .ok l (World.init ntl1 crand1)) :
    ∃ rest, randomData n (ntl.map (fun raw => ((randomBits bits raw : Nat) : Int))) = some (.ok l, rest) ∧
      ntl1 = ntl.drop (ntl.length - rest.length) ∧ crand1 = crand := by
  unfold drawData at h
  change (match randomData n (ntl.map (fun raw => ((randomBits bits raw : Nat) : Int))) with
    | none => Out.fault .outOfDraws
    | some (.error f, _) => .fault f
    | some (.ok l, rest) => .ok l _) = _ at h
  cases hd : randomData n (ntl.map (fun raw => ((randomBits bits raw : Nat) : Int))) with
  | none => rw [hd] at h; exact nomatch h
  | some x =>
    obtain ⟨r, rest⟩ := x
    rw [hd] at h
    cases r with
    | error f => exact nomatch h
    | ok l' =>
      obtain ⟨rfl, h2⟩ := Out.ok.inj h
      refine ⟨rest, rfl, ?_, ?_⟩
      · exact (congrArg World.ntl h2).symm
      · exact (congrArg World.crand h2).symm

theorem drawData_run {n bits : Nat} {ntl ntl1 crand crand1 : List Nat} {l : List Int}
    (h : drawData n bits (World.init (p := p) ntl crand) = .ok l (World.init ntl1 crand1)) {t : HashBuckets (ZMod p)} {prm : Params}
    (c : List Nat) : drawData n bits (ready t prm ntl c) = .ok l (ready t prm ntl1 c) := by
  obtain ⟨rest, h1, rfl, -⟩ := drawData_inv h
  unfold drawData
  change (match randomData n (ntl.map (fun raw => ((randomBits bits raw : Nat) : Int))) with
    | none => Out.fault .outOfDraws
    | some (.error f, _) => .fault f
    | some (.ok l, rest) => .ok l _) = _
  rw [h1]
  rfl

theorem drawn {n bits : Nat} {ntl ntl1 crand crand1 : List Nat} {l : List Int}
    (h : drawData n bits (World.init (p := p) ntl crand) = .ok l (World.init ntl1 crand1)) :
    l.length = n ∧ l.Nodup ∧ ∀ v ∈ l, 0 ≤ v ∧ v < 2 ^ bits := by
  obtain ⟨rest, h1, -, -⟩ := drawData_inv h
  by_cases h0 : n = 0
  · subst h0
    rw [C60_none] at h1
    obtain ⟨h2, -⟩ := Prod.mk.inj (Option.some.inj h1)
    obtain rfl := Except.ok.inj h2
    exact ⟨rfl, List.nodup_nil, fun v hv => nomatch hv⟩
  · obtain ⟨data, used, e1, e2, e3, e4, e5, -⟩ := C60_random_data n (Nat.one_le_iff_ne_zero.2 h0) _ _ _ h1
    obtain rfl := Except.ok.inj e1
    refine ⟨e2, e3.nodup, fun v hv => ?_⟩
    have : v ∈ ntl.map (fun raw => ((randomBits bits raw : Nat) : Int)) := by
      rw [e4]; exact List.mem_append_left _ ((e5 v).1 hv)
    obtain ⟨raw, -, rfl⟩ := List.mem_map.1 this
    refine ⟨Int.natCast_nonneg _, ?_⟩
    have : randomBits bits raw < 2 ^ bits := Nat.mod_lt _ (by positivity)
    exact_mod_cast this

theorem catchP_ok {α : Type} {x : M p α} {f : Exc → M p α} {a : α} {w w' : World p} (h : x w = .ok a w') : M.catchP x f w = .ok a w' := by
  unfold M.catchP; rw [h]

theorem request_run {D : Digest} {F : Factoring p} {w w' : World p} {μ : Msg} {B : Party p} (hμ : w.msg 2 = some μ) (hB : w.party 2 = some B)
    (hs : send D F 2 1 (some (.user 2)) (w.asked 2 μ B.id B.secret) = .ok () w') : request D F w = .ok (some w.next) w' := by
  unfold request
  refine (M.bind_ok (M.run_setMsg _ hμ) _).trans ?_
  refine (M.bind_ok (M.run_party (w := w.setMsg 2 _) hB) _).trans ?_
  refine (M.bind_ok (M.run_setMsg _ (setMsg_msg _ _ _)) _).trans ?_
  refine (M.bind_ok (M.run_alloc _ _) _).trans ?_
  refine (M.bind_ok (M.run_setMsg (μ := (μ.setType .clientRequest).setPartyId B.id) _ ?_) _).trans ?_
  · exact setMsg_msg (w.setMsg 2 (μ.setType .clientRequest)) 2 ((μ.setType .clientRequest).setPartyId B.id)
  have e : World.setMsg { (((w.setMsg 2 (μ.setType .clientRequest)).setMsg 2 ((μ.setType .clientRequest).setPartyId B.id))) with
      cell := upd w.cell w.next (some (.bytes (clientRequestData B.id B.secret))), next := w.next + 1 } 2
      (((μ.setType .clientRequest).setPartyId B.id).setData (some w.next) (clientRequestData B.id B.secret).length) =
      w.asked 2 μ B.id B.secret := by
    unfold World.setMsg World.asked askMsg
    simp only [upd_upd]
  refine (M.bind_ok (a := ()) (w' := w') ?_ _).trans rfl
  have hs' := (congrArg (send D F 2 1 (some (.user 2))) e).trans hs
  exact catchP_ok hs'

theorem cleanUp_run {w : World p} {A B : Party p} (hA : w.party 1 = some A) (hB : w.party 2 = some B) (a1 : A.blindedData = some 0)
    (b1 : B.blindedData = some 1) {m0 m1 : List (List (ZMod p))} {bs : List Byte} (c0 : w.cell 0 = some (.matrix m0))
    (c1 : w.cell 1 = some (.matrix m1)) (c2 : w.cell 2 = some (.bytes bs)) :
    cleanUp (some 2) w = .ok () { w with cell := upd (upd (upd w.cell 0 none) 1 none) 2 none } := by
  have h1 : M.deleteMat (some 0) w = .ok () { w with cell := upd w.cell 0 none } := by unfold M.deleteMat; simp only [c0]
  have h2 : M.deleteMat (some 1) { w with cell := upd w.cell 0 none } = .ok () { w with cell := upd (upd w.cell 0 none) 1 none } := by
    unfold M.deleteMat
    have : upd w.cell 0 none 1 = some (.matrix m1) := (upd_ne _ _ (by decide)).trans c1
    simp only [this]
  have h3 : M.deleteBytes (some 2) { w with cell := upd (upd w.cell 0 none) 1 none } =
      .ok () { w with cell := upd (upd (upd w.cell 0 none) 1 none) 2 none } := by
    unfold M.deleteBytes
    have : upd (upd w.cell 0 none) 1 none 2 = some (.bytes bs) := (upd_ne _ _ (by decide)).trans ((upd_ne _ _ (by decide)).trans c2)
    simp only [this]
  unfold cleanUp
  rw [M.bind_ok (M.run_party hA), a1, M.bind_ok h1]
  refine (M.bind_ok (M.run_party (w := { w with cell := upd w.cell 0 none }) hB) _).trans ?_
  rw [b1, M.bind_ok h2, h3]

/-! ## `main` stopped by `setRawData` -/

theorem M.bind_fault {α β : Type} {x : M p α} {g : Fault} {w : World p} (h : x w = .fault g) (f : α → M p β) : (x >>= f) w = .fault g := by
  rw [M.run_bind, h]

theorem setRawData_fault {D : Digest} {hw : Nat} {r : Ref} {z : Int} {zs : List Int} {dataBits nThreads : Nat} {w : World p}
    {P : Party p} {h : HashBuckets (ZMod p)} (hP : w.party r = some P) (hT : w.table P.table = some h) {f : Fault}
    (hb : h.addList (paddedData (P.withData (z :: zs) dataBits) dataBits) = .error f) :
    setRawData D hw r (some (z :: zs)) dataBits nThreads w = .fault f := by
  have hb' : blindC D (threadsUsed hw nThreads) { P with rawData := z :: zs, rawDataBits := some dataBits } dataBits h
      (P.autoIndex, P.autoSeed, w.crand) = .error f := by
    unfold blindC
    change (h.addList (paddedData (P.withData (z :: zs) dataBits) dataBits) >>= _) = _
    rw [hb]; rfl
  unfold setRawData
  simp only [M.run_bind, M.run_party hP]
  have : M.table P.table w = .ok h w := by simp [M.table, hT]
  rw [this]
  simp only [M.run_get]
  rw [hb']
  rfl

theorem outsourcing_alice {D : Digest} {F : Factoring p} {hw : Nat} {w : World p} {A B : Party p} (hA : w.party 1 = some A) (hB : w.party 2 = some B)
    (h0 : w.msg 0 ≠ none) (h1 : w.msg 1 ≠ none) {la lb : List Int} {bits : Nat} {f : Fault}
    (hf : ∀ m, setRawData D hw 1 (some la) bits 1 (w.setMsgs m) = .fault f) : outsourcing D F hw bits la lb w = .fault f := by
  obtain ⟨μA, hμA⟩ := Option.ne_none_iff_exists'.1 h0
  obtain ⟨μB, hμB⟩ := Option.ne_none_iff_exists'.1 h1
  have z1 : ∀ (f : Nat → Option Msg) v, upd f 1 v 0 = f 0 := fun f v => upd_ne _ _ (by decide)
  have z0 : ∀ (f : Nat → Option Msg) v, upd f 0 v 1 = f 1 := fun f v => upd_ne _ _ (by decide)
  unfold outsourcing
  refine (M.bind_ok (run_setMsgs (w := w) _ hμA) _).trans ?_
  refine (M.bind_ok (run_setMsgs _ ((z0 _ _).trans hμB)) _).trans ?_
  refine (M.bind_ok (run_party_setMsgs hA) _).trans ?_
  refine (M.bind_ok (run_setMsgs _ ((z1 _ _).trans (upd_same _ _ _))) _).trans ?_
  refine (M.bind_ok (run_party_setMsgs hB) _).trans ?_
  refine (M.bind_ok (run_setMsgs _ ((z0 _ _).trans (upd_same _ _ _))) _).trans ?_
  exact M.bind_fault (hf _) _

theorem outsourcing_bob {D : Digest} {F : Factoring p} {hw : Nat} {w w1 : World p} {A B : Party p} (hA : w.party 1 = some A) (hB : w.party 2 = some B)
    (h0 : w.msg 0 ≠ none) (h1 : w.msg 1 ≠ none) {la lb : List Int} {bits : Nat} {f : Fault}
    (hok : setRawData D hw 1 (some la) bits 1 w = .ok () w1)
    (hf : ∀ m, setRawData D hw 2 (some lb) bits 1 (w1.setMsgs m) = .fault f) : outsourcing D F hw bits la lb w = .fault f := by
  obtain ⟨μA, hμA⟩ := Option.ne_none_iff_exists'.1 h0
  obtain ⟨μB, hμB⟩ := Option.ne_none_iff_exists'.1 h1
  have z1 : ∀ (f : Nat → Option Msg) v, upd f 1 v 0 = f 0 := fun f v => upd_ne _ _ (by decide)
  have z0 : ∀ (f : Nat → Option Msg) v, upd f 0 v 1 = f 1 := fun f v => upd_ne _ _ (by decide)
  unfold outsourcing
  refine (M.bind_ok (run_setMsgs (w := w) _ hμA) _).trans ?_
  refine (M.bind_ok (run_setMsgs _ ((z0 _ _).trans hμB)) _).trans ?_
  refine (M.bind_ok (run_party_setMsgs hA) _).trans ?_
  refine (M.bind_ok (run_setMsgs _ ((z1 _ _).trans (upd_same _ _ _))) _).trans ?_
  refine (M.bind_ok (run_party_setMsgs hB) _).trans ?_
  refine (M.bind_ok (run_setMsgs _ ((z0 _ _).trans (upd_same _ _ _))) _).trans ?_
  refine (M.bind_ok (setRawData_setMsgs hok _).1 _).trans ?_
  exact M.bind_fault (hf _) _

/-- `main` up to the outsourcing. -/
theorem rest_outsourcing {D : Digest} {F : Factoring p} {hw : Nat} {qsort : (Int → Int → Int) → List Int → List Int} {prm : Params}
    {t : HashBuckets (ZMod p)} {ntl ntl1 ntl2 ntl3 crand : List Nat} {c a b : List Int}
    (hc : drawData prm.r prm.plainSetBits (World.init (p := p) ntl crand) = .ok c (World.init ntl1 crand))
    (hA : drawData (prm.n - prm.r) prm.plainSetBits (World.init (p := p) ntl1 crand) = .ok a (World.init ntl2 crand))
    (hB : drawData (prm.n - prm.r) prm.plainSetBits (World.init (p := p) ntl2 crand) = .ok b (World.init ntl3 crand)) :
    rest D F hw qsort prm (ready t prm ntl crand) = (outsourcing D F hw prm.plainSetBits (c ++ a) (c ++ b) >>= fun _ => do
      let cap ← M.liftC (intersect qsort (c ++ a) prm.n (c ++ b) prm.n)
      let data ← request D F
      let B ← M.party 2
      let verdict ← M.liftC (check cap cap.length (B.setcap.map (fun v : Nat => (v : Int))))
      cleanUp data
      pure verdict : M p Bool) (ready t prm ntl3 crand) := by
  obtain ⟨c1, -⟩ := drawn hc
  obtain ⟨a1, -⟩ := drawn hA
  obtain ⟨b1, -⟩ := drawn hB
  have jA : join c prm.r a (prm.n - prm.r) = .ok (c ++ a) := by have := join_eq c a; rw [c1, a1] at this; exact this
  have jB : join c prm.r b (prm.n - prm.r) = .ok (c ++ b) := by have := join_eq c b; rw [c1, b1] at this; exact this
  unfold rest
  refine (M.bind_ok (drawData_run hc crand) _).trans ?_
  refine (M.bind_ok (drawData_run hA crand) _).trans ?_
  rw [jA]
  refine (M.bind_ok (M.run_liftC_ok _ _) _).trans ?_
  refine (M.bind_ok (drawData_run hB crand) _).trans ?_
  rw [jB]
  exact (M.bind_ok (M.run_liftC_ok _ _) _)

end Simul
end EoPsi
