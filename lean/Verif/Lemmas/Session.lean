import Verif.Lemmas.Run
import Verif.Spec.Mismatch
import Verif.Props.Storage

/-! # A complete session -/

set_option linter.unusedSectionVars false

namespace EoPsi

open Polynomial ZZpPolynomials

variable {p : Nat} [Fact p.Prime]

/-- with one message object changed -/
def World.setMsg (w : World p) (k : Nat) (μ : Msg) : World p := { w with msg := upd w.msg k (some μ) }

theorem setMsg_setMsg (w : World p) (k : Nat) (μ μ' : Msg) : (w.setMsg k μ).setMsg k μ' = w.setMsg k μ' := by
  unfold World.setMsg; simp only [upd_upd]

theorem setMsg_msg (w : World p) (k : Nat) (μ : Msg) : (w.setMsg k μ).msg k = some μ := upd_same _ _ _

theorem step_msgId {D : Digest} {F : Factoring p} {hw : Nat} {w : World p} {k : Nat} {name : Id} {μ : Msg} (h : w.msg k = some μ) :
    w.step D F hw (.msgPartyId k name) = .ok (w.setMsg k (μ.setPartyId name)) := step_msgPartyId h

theorem runCalls_step {D : Digest} {F : Factoring p} {hw : Nat} {w w' : World p} {c : Call p} (h : w.step D F hw c = .ok w')
    (cs : List (Call p)) : w.runCalls D F hw (c :: cs) = w'.runCalls D F hw cs := by
  simp only [World.runCalls, h]; rfl

theorem runCalls_append {D : Digest} {F : Factoring p} {hw : Nat} (cs cs' : List (Call p)) : ∀ {w w' : World p},
    w.runCalls D F hw cs = .ok w' → w.runCalls D F hw (cs ++ cs') = w'.runCalls D F hw cs' := by
  induction cs with
  | nil => intro w w' h; cases h; rfl
  | cons c cs ih =>
    intro w w' h
    obtain ⟨w1, h1, h2⟩ := runCalls_cons h
    rw [List.cons_append, runCalls_step h1]
    exact ih h2

theorem step_msgType {D : Digest} {F : Factoring p} {hw : Nat} {w : World p} {k : Nat} {t : MsgType} {μ : Msg} (h : w.msg k = some μ) :
    w.step D F hw (.msgType k t) = .ok (w.setMsg k (μ.setType t)) := by
  unfold World.step
  change (match M.setMsg k (fun μ => μ.setType t) w with
    | .ok _ w' => Except.ok w' | .thrown _ w' => Except.ok w' | .fault f => Except.error f : C (World p)) = _
  unfold M.setMsg World.setMsg
  rw [h]

theorem step_msgBlinded {D : Digest} {F : Factoring p} {hw : Nat} {w : World p} {k : Nat} {r : Ref} {P : Party p} {n : Nat} {μ : Msg}
    (h : w.msg k = some μ) (hP : w.party r = some P) :
    w.step D F hw (.msgData k (.blinded r) n) = .ok (w.setMsg k (μ.setData P.blindedData n)) := by
  unfold World.step
  change (match (((M.party r >>= fun P => pure P.blindedData : M p Ptr) >>= fun x => M.setMsg k (fun μ => μ.setData x n)) : M p Unit) w with
    | .ok _ w' => Except.ok w' | .thrown _ w' => Except.ok w' | .fault f => Except.error f : C (World p)) = _
  rw [M.run_bind, M.run_bind, M.run_party hP]
  simp only [M.run_pure]
  unfold M.setMsg World.setMsg
  rw [h]

theorem step_msgBytes {D : Digest} {F : Factoring p} {hw : Nat} {w : World p} {k : Nat} {b : List Byte} {n : Nat} {μ : Msg}
    (h : w.msg k = some μ) :
    w.step D F hw (.msgData k (.bytes b) n) = .ok { w with
      msg := upd w.msg k (some (μ.setData (some w.next) n)), cell := upd w.cell w.next (some (.bytes b)), next := w.next + 1 } := by
  unfold World.step
  change (match (((M.alloc (.bytes b) >>= fun a => pure (some a) : M p Ptr) >>= fun x => M.setMsg k (fun μ => μ.setData x n)) : M p Unit) w with
    | .ok _ w' => Except.ok w' | .thrown _ w' => Except.ok w' | .fault f => Except.error f : C (World p)) = _
  rw [M.run_bind, M.run_bind, M.run_alloc]
  simp only [M.run_pure]
  unfold M.setMsg
  simp only [h]

/-- The message object of outsourced data. -/
def outMsg (μ : Msg) (name : Id) (x : Ptr) (n : Nat) : Msg := ((μ.setType .outsourcingData).setPartyId name).setData x n

/-- the server with one more entry -/
def Party.storing (S : Party p) (name : Id) (k : Nat) : Party p := { S with stored := mapInsert name (.user k) S.stored }

/-- The state after outsourcing. -/
def World.outsourced (w : World p) (cloud : Ref) (S : Party p) (k : Nat) (μ : Msg) (name : Id) : World p :=
  { w with msg := upd w.msg k (some μ), party := upd w.party cloud (some (S.storing name k)) }

theorem outsource_run {D : Digest} {F : Factoring p} {hw : Nat} {w : World p} {r cloud : Ref} {P S : Party p} {k len : Nat} {μ : Msg}
    (hP : w.party r = some P) (hS : w.party cloud = some S) (hμ : w.msg k = some μ) (cS : S.cls = .server) (tP : P.type = .client)
    (hid : P.id ≠ S.id) (hk : S.getPartyById P.id = some r) :
    w.runCalls D F hw (outsource r cloud k P.id len) =
      .ok (w.outsourced cloud S k (outMsg μ P.id P.blindedData len) P.id) := by
  unfold outsource
  rw [runCalls_step (step_msgType hμ), runCalls_step (step_msgId (setMsg_msg _ _ _)), setMsg_setMsg,
    runCalls_step (step_msgBlinded (P := P) (setMsg_msg _ _ _) hP), setMsg_setMsg]
  have hs : (w.setMsg k (outMsg μ P.id P.blindedData len)).step D F hw
      (.send r cloud (some k)) = .ok (w.outsourced cloud S k (outMsg μ P.id P.blindedData len) P.id) := by
    rw [step_send]
    have hin : Incoming (w.setMsg k (outMsg μ P.id P.blindedData len)) cloud (.user k) S
        (outMsg μ P.id P.blindedData len) r P := ⟨hS, upd_same _ _ _, hid, hk, hP⟩
    have : send D F r cloud (some (.user k)) (w.setMsg k (outMsg μ P.id P.blindedData len)) =
        .ok () (w.outsourced cloud S k (outMsg μ P.id P.blindedData len) P.id) := by
      change receiveN D F 3 cloud (.user k) _ = _
      rw [receiveN_eq hin.receiver, cS]
      simp only
      rw [serverReceive_eq hin, if_neg (by
        unfold Party.hasAuthenticated; rw [hk, tP]; exact Bool.noConfusion)]
      change handleOutsourcing cloud r (.user k) _ = _
      rw [handleOutsourcing_eq hin.receiver hin.object, if_neg (by rw [tP]; exact fun h => nomatch h)]
      rfl
    rw [this]
  exact runCalls_step (F := F) (D := D) (hw := hw) hs []

theorem conceal_invariant {T G : Type} {gen : G → C (T × G)} {I : G → Prop} (hI : ∀ g v g', I g → gen g = .ok (v, g') → I g')
    {h h' : HashBuckets T} {g g' : G} (hc : h.conceal gen g = .ok (h', g')) (hg : I g) : I g' := by
  have fillI : ∀ (n : Nat) (g : G) (xs ys : List T) (g' : G), HashBuckets.fill gen n g xs = .ok (ys, g') → I g → I g' := by
    intro n
    induction n with
    | zero => intro g xs ys g' h hg; cases h; exact hg
    | succ n ih =>
      intro g xs ys g' h hg
      obtain ⟨⟨v, g1⟩, h1, h2⟩ := bind_eq_ok h
      exact ih _ _ _ _ h2 (hI _ _ _ hg h1)
  have loopI : ∀ (ml : Nat) (bs bs' : List (Bucket T)) (g g' : G), HashBuckets.concealLoop gen ml g bs = .ok (bs', g') → I g → I g' := by
    intro ml bs
    induction bs with
    | nil => intro bs' g g' h hg; cases h; exact hg
    | cons b bs ih =>
      intro bs' g g' h hg
      obtain ⟨⟨v, g1⟩, h1, h2⟩ := bind_eq_ok h
      obtain ⟨⟨v2, g2⟩, h3, h4⟩ := bind_eq_ok h2
      cases h4
      exact ih _ _ _ h3 (fillI _ _ _ _ _ h1 hg)
  obtain ⟨⟨v, g1⟩, h1, h2⟩ := bind_eq_ok hc
  cases h2
  exact loopI _ _ _ _ _ h1 hg

/-- After one table there is still a draw. -/
def TwoDraws (g : GenState p) : Prop := 2 ≤ g.2.2.length ∨ (g.2.1 ≠ none ∧ 1 ≤ g.2.2.length)

theorem concealGen_twoDraws {D : Digest} {m : Int} (g : GenState p) (v : ZMod p) (g' : GenState p) (h : TwoDraws g)
    (hc : concealGen D m g = .ok (v, g')) : TwoDraws g' := by
  obtain ⟨k, s, rnd⟩ := g
  cases s with
  | some s =>
    rw [concealGen] at hc
    obtain ⟨x, h1, h2⟩ := bind_eq_ok hc
    cases h2
    exact h.elim Or.inl (fun h => Or.inr ⟨by simp, h.2⟩)
  | none =>
    cases rnd with
    | nil => rw [concealGen] at hc; exact absurd hc (by simp)
    | cons r rnd =>
      rw [concealGen] at hc
      obtain ⟨x, h1, h2⟩ := bind_eq_ok hc
      cases h2
      rcases h with h | ⟨h, -⟩
      · simp only [List.length_cons] at h
        exact Or.inr ⟨by simp, by simp only; omega⟩
      · exact absurd rfl h

/-- the client after `setRawData` -/
def Party.withRaw (P : Party p) (l : List Int) (bits : Nat) (u : List (ZMod p)) (a : Addr) (g : GenState p) : Party p :=
  { P with rawData := l, rawDataBits := some bits, unknowns := u, blindedData := some a, autoIndex := g.1, autoSeed := g.2.1 }

/-- `setRawData` on a client with a new table. -/
theorem raw_phase {D : Digest} {F : Factoring p} {hw : Nat} {w : World p} {r : Ref} {P S : Party p} {bits n : Nat}
    {alg : HashAlg (ZMod p)} {d : ZMod p → List Byte} {u : List (ZMod p)} {l : List Int} (hP : w.party r = some P)
    (hc : P.cls = .client) (ha : alg.Computes d) {t : HashBuckets (ZMod p)} (ht : w.table P.table = some t)
    (hnew : HashBuckets.new S.length S.height (some alg) = .ok t) (hL : 0 < S.length) (hPL : P.length = S.length)
    (hfb : P.fieldbits = S.fieldbits) (hm : P.modulo ≠ 0)
    (hfit : Fits d S bits l) (hu : P.getUnknowns D P.degree = .ok u) (hul : P.degree ≤ u.length)
    (hlive : GenState.Live (P.autoIndex, P.autoSeed, w.crand)) :
    ∃ h' g m, w.step D F hw (.setRawData r (some l) bits n) = .ok (w.afterRaw r P l bits h' g u m) ∧
      (TwoDraws (P.autoIndex, P.autoSeed, w.crand) → TwoDraws g) ∧
      (∀ j, j < S.length → (h'.itemsAt j).length = S.height ∧
        ∃ zs, h'.itemsAt j = inBucket d S.length (paddedAs S bits l) j ++ zs) ∧
      (∀ j i, j < P.length → i < P.degree → entry m j i = some ((rootsPoly (h'.itemsAt j)).eval (u.getD i 0) +
        fieldVal D P.modulo (P.secret : ZMod p) (j * P.degree + i) P.fieldbits)) := by
  obtain ⟨hne, hov⟩ := hfit
  obtain ⟨z, zs, rfl⟩ := List.exists_cons_of_ne_nil hne
  obtain ⟨t', ht', hholds⟩ := HashBuckets.new_holds ha S.length S.height
  rw [hnew] at ht'; obtain rfl := Except.ok.inj ht'
  have hpd : paddedData (P.withData (z :: zs) bits) bits = paddedAs S bits (z :: zs) := by
    unfold paddedData paddedAs
    rw [show (P.withData (z :: zs) bits).fieldbits = S.fieldbits from hfb]; rfl
  rcases HashBuckets.addList_holds ha hL (paddedAs S bits (z :: zs)) hholds with ⟨-, h1, e1, e2⟩ | ⟨⟨i, hi⟩, -⟩
  swap
  · exact absurd (hov i) (by rw [List.nil_append] at hi; omega)
  rw [List.nil_append] at e2
  obtain ⟨h', g, e3, hg⟩ := conceal_live (D := D) hm h1 hlive
  have hshape : ∀ j, j < S.length → ∃ b', h'.buckets[j]? = some b' ∧ ∃ ys, ys.length = S.height - (inBucket d S.length (paddedAs S bits (z :: zs)) j).length ∧
      b'.items = inBucket d S.length (paddedAs S bits (z :: zs)) j ++ ys := by
    intro j hj
    have e3' := e3
    unfold HashBuckets.conceal at e3'
    obtain ⟨⟨bs, g1⟩, hl, he⟩ := bind_eq_ok e3'
    have hf := HashBuckets.concealLoop_ok _ _ _ _ _ _ hl
    have hget : h1.buckets[j]? = some ⟨inBucket d S.length (paddedAs S bits (z :: zs)) j, false⟩ := by
      rw [e2.buckets, List.getElem?_map, List.getElem?_range hj]; rfl
    simp only [Except.ok.injEq, Prod.mk.injEq] at he
    obtain ⟨rfl, rfl⟩ := he
    obtain ⟨hjl, hget'⟩ := List.getElem?_eq_some_iff.1 hget
    have hjl' : j < bs.length := hf.length_eq ▸ hjl
    have := (List.forall₂_iff_get.1 hf).2 j hjl hjl'
    simp only [List.get_eq_getElem, hget'] at this
    obtain ⟨⟨ys, hy1, hy2⟩, -⟩ := this
    exact ⟨bs[j], List.getElem?_eq_getElem hjl', ys, by rw [hy1, e2.m_eq], hy2⟩
  have hk' : h'.k = S.length := by
    unfold HashBuckets.conceal at e3
    obtain ⟨⟨bs, g1⟩, hl, he⟩ := bind_eq_ok e3
    simp only [Except.ok.injEq, Prod.mk.injEq] at he
    obtain ⟨rfl, rfl⟩ := he
    exact e2.k_eq
  have hitems : ∀ j, j < S.length → (h'.itemsAt j).length = S.height ∧
        ∃ zs', h'.itemsAt j = inBucket d S.length (paddedAs S bits (z :: zs)) j ++ zs' := by
    intro j hj
    obtain ⟨b', hb', ys, hy1, hy2⟩ := hshape j hj
    have : h'.itemsAt j = inBucket d S.length (paddedAs S bits (z :: zs)) j ++ ys := by
      simp [HashBuckets.itemsAt, hb', hy2]
    refine ⟨?_, ys, this⟩
    rw [this, List.length_append, hy1]
    have := hov j
    omega
  have hgb : ZZpPRF.genBits (P.withData (z :: zs) bits).modulo (P.withData (z :: zs) bits).fieldbits ≠ 0 := genBits_ne_zero hm _
  have hblind := blindC_ok (D := D) (n := 1) (P := P.withData (z :: zs) bits) (dataBits := bits) (h := t) (h1 := h1) (h' := h')
    (g := (P.autoIndex, P.autoSeed, w.crand)) (g' := g) (u := u) le_rfl (by rw [hpd]; exact e1) e3 hu
    (fun i hi => by
      have hi : i < S.length := by rw [← hPL]; exact hi
      obtain ⟨b', hb', -⟩ := hshape i hi
      exact ⟨b', by unfold HashBuckets.getBucket; simp [hk', hi, hb']⟩) hul hgb
  refine ⟨h', g, _, step_setRawData_ok hP hc ht hblind, conceal_invariant concealGen_twoDraws e3, hitems, fun j i hj hi => ?_⟩
  have e : entry (blindedMatrix D (P.withData (z :: zs) bits) h' u) j i =
      some ((buildFromRoots (h'.itemsAt j)).eval (u.getD i 0) + padVal D P (P.secret : ZMod p) (j * P.degree + i)) := by
    unfold entry blindedMatrix
    rw [List.getElem?_map, List.getElem?_range (show j < (P.withData (z :: zs) bits).length from hj), Option.map_some, Option.bind_some,
      List.getElem?_append_left (by rw [List.length_map, List.length_range]; exact hi), List.getElem?_map, List.getElem?_range (show i < (P.withData (z :: zs) bits).degree from hi)]
    rfl
  rw [e, padVal_eq, rootsPoly_eq]

/-! ## All steps together -/

/-- The message object of the request. -/
def askMsg (μ : Msg) (name : Id) (x : Addr) (n : Nat) : Msg := ((μ.setType .clientRequest).setPartyId name).setData (some x) n

/-- The state before the request is sent. -/
def World.asked (w : World p) (k : Nat) (μ : Msg) (name : Id) (secret : Int) : World p :=
  { w with
    msg := upd w.msg k (some (askMsg μ name w.next (clientRequestData name secret).length))
    cell := upd w.cell w.next (some (.bytes (clientRequestData name secret)))
    next := w.next + 1 }

theorem ask_run {D : Digest} {F : Factoring p} {hw : Nat} {w : World p} {bob alice : Ref} {k : Nat} {name : Id} {secret : Int} {μ : Msg}
    (hμ : w.msg k = some μ) : w.runCalls D F hw (ask bob alice k name secret) =
      (w.asked k μ name secret).runCalls D F hw [.send bob alice (some k)] := by
  unfold ask
  rw [runCalls_step (step_msgType hμ), runCalls_step (step_msgId (setMsg_msg _ _ _)), setMsg_setMsg,
    runCalls_step (step_msgBytes (setMsg_msg _ _ _))]
  unfold World.setMsg World.asked askMsg
  simp only [upd_upd]

theorem SmallestServer.transport {w w' : World p} {P P' : Party p} {name : Id} {c : Ref} (h : SmallestServer w P name c)
    (hP : P'.parties = P.parties) (ht : ∀ r, (w'.party r).map (·.type) = (w.party r).map (·.type)) : SmallestServer w' P' name c := by
  have key : ∀ name' c', IsServerOf w' P' name' c' ↔ IsServerOf w P name' c' := by
    intro name' c'
    unfold IsServerOf Party.getPartyById
    rw [hP]
    have := ht c'
    constructor
    · rintro ⟨h1, Q, h2, h3⟩
      rw [h2, Option.map_some] at this
      obtain ⟨Q', h4, h5⟩ := Option.map_eq_some_iff.1 this.symm
      exact ⟨h1, Q', h4, h5.trans h3⟩
    · rintro ⟨h1, Q, h2, h3⟩
      rw [h2, Option.map_some] at this
      obtain ⟨Q', h4, h5⟩ := Option.map_eq_some_iff.1 this
      exact ⟨h1, Q', h4, h5.trans h3⟩
  exact ⟨(key _ _).2 h.1, fun name' c' h' => h.2 name' c' ((key _ _).1 h')⟩

/-- A session up to the point where the request is complete but not yet sent. -/
def beforeAsking (alice bob cloud : Ref) (A B : Party p) (kA kB k : Nat) (la lb : List Int) (bits nA nB lenA lenB : Nat) : List (Call p) :=
  ([.setRawData alice (some la) bits nA, .setRawData bob (some lb) bits nB] ++
    outsource alice cloud kA A.id lenA ++ outsource bob cloud kB B.id lenB) ++ [.msgType k .clientRequest, .msgPartyId k B.id,
    .msgData k (.bytes (clientRequestData B.id B.secret)) (clientRequestData B.id B.secret).length]

/-- Without the condition on the secret. -/
theorem Prepared.any {D : Digest} {w : World p} {alice bob cloud : Ref} {A B S : Party p} {kA kB k : Nat} {alg : HashAlg (ZMod p)}
    {d : ZMod p → List Byte} {u : List (ZMod p)} (h : Prepared D w alice bob cloud A B S kA kB k alg d u) :
    PreparedAny D w alice bob cloud A B S kA kB k alg d u :=
  ⟨h.toArranged, h.prime, h.hash, h.tableA, h.tableB, h.tables, h.pointsA, h.pointsB, h.pointsS, h.count, h.msgs, h.objects, h.first⟩

/-- One hash function is a special case of two. -/
theorem PreparedAny.two {D : Digest} {w : World p} {alice bob cloud : Ref} {A B S : Party p} {kA kB k : Nat} {alg : HashAlg (ZMod p)}
    {d : ZMod p → List Byte} {u : List (ZMod p)} (h : PreparedAny D w alice bob cloud A B S kA kB k alg d u) :
    PreparedTwo D w alice bob cloud A B S kA kB k alg alg d d S.height S.height u :=
  ⟨h.toArranged, h.prime, h.hash, h.hash, h.tableA, h.tableB, h.tables, h.pointsA, h.pointsB, h.pointsS, h.count, h.msgs, h.objects,
    h.first⟩

/-- Up to the request, with the arrays that exist then, whatever Bob's secret is, with two hash functions and two numbers of bits. -/
theorem session_ready_two {D : Digest} {F : Factoring p} {hw : Nat} {w : World p} (hr : w.Reachable D F hw) {alice bob cloud : Ref}
    {A B S : Party p} {kA kB k : Nat} {algA algB : HashAlg (ZMod p)} {dA dB : ZMod p → List Byte} {loadA loadB : Nat} {u : List (ZMod p)}
    (h : PreparedTwo D w alice bob cloud A B S kA kB k algA algB dA dB loadA loadB u) {la lb : List Int} {bitsA bitsB : Nat} (fA : FitsIn dA S loadA bitsA la)
    (fB : FitsIn dB S loadB bitsB lb) (hd : 2 ≤ w.crand.length) {key : Nat} {ntl : List Nat} (hk : drawKey w.ntl = .ok (key, ntl))
    (nA nB lenA lenB : Nat) :
    ∃ (w5 : World p) (A' B' S' : Party p) (iA iB : Nat → List (ZMod p)), 
      w.runCalls D F hw (sessionTwo alice bob cloud A B kA kB k la lb bitsA bitsB nA nB lenA lenB) =
        w5.runCalls D F hw [.send bob alice (some k)] ∧
      (AskedAny D w5 alice bob cloud A' B' S' k key u (fun j => rootsPoly (iA j)) (fun j => rootsPoly (iB j)) bitsB ∧ B'.q = none) ∧
      w5.Reachable D F hw ∧ S'.length = S.length ∧ S'.degree = S.degree ∧ S'.height = S.height ∧ S'.fieldsize = S.fieldsize ∧
      (A'.rawDataBits = some bitsA ∧ A'.secret = A.secret ∧ A'.id = A.id ∧ B'.id = B.id ∧ B'.secret = B.secret ∧ w5.ntl = w.ntl ∧
        w5.msg k ≠ none ∧ (∀ name c, SmallestServer w B name c → SmallestServer w5 B' name c) ∧
        mapFind A'.id S'.stored = some (.user kA) ∧ mapFind B'.id S'.stored = some (.user kB) ∧ S'.id = S.id ∧ B'.t = B.t) ∧
      (∀ j, j < S.length → w5.bucket A.table j = iA j ∧ w5.bucket B.table j = iB j ∧ (iA j).length = loadA ∧ (iB j).length = loadB ∧
        (∃ zs, iA j = inBucket dA S.length (paddedAs S bitsA la) j ++ zs) ∧
        ∃ zs, iB j = inBucket dB S.length (paddedAs S bitsB lb) j ++ zs) ∧
      (w.runCalls D F hw (beforeAskingTwo alice bob cloud A B kA kB k la lb bitsA bitsB nA nB lenA lenB) = .ok w5 ∧
        A'.blindedData = some w.next ∧ B'.blindedData = some (w.next + 1) ∧ w5.next = w.next + 3 ∧
        (∃ m, w5.cell w.next = some (.matrix m)) ∧ (∃ m, w5.cell (w.next + 1) = some (.matrix m)) ∧
        (∃ b, w5.cell (w.next + 2) = some (.bytes b)) ∧ (∀ a, a < w.next → w5.cell a = w.cell a) ∧
        (∃ μ, w5.msg kA = some μ ∧ μ.data = some w.next) ∧ ∃ μ, w5.msg kB = some μ ∧ μ.data = some (w.next + 1)) := by
  have nAB : bob ≠ alice := by
    rintro rfl; have e := h.isA; rw [h.isB] at e; exact h.idAB (by rw [Option.some.inj e])
  have nAS : cloud ≠ alice := by
    rintro rfl; have e := h.isA; rw [h.isS] at e; exact h.idAS (by rw [Option.some.inj e])
  have nBS : bob ≠ cloud := by
    rintro rfl; have e := h.isB; rw [h.isS] at e; exact h.idBS (by rw [Option.some.inj e])
  have fAS : A.fieldbits = S.fieldbits := by unfold Party.fieldbits; rw [h.fieldA]
  have fBS : B.fieldbits = S.fieldbits := by unfold Party.fieldbits; rw [h.fieldB]
  obtain ⟨tA, htA, newA⟩ := h.tableA
  obtain ⟨tB, htB, newB⟩ := h.tableB
  obtain ⟨μA, hμA⟩ := Option.ne_none_iff_exists'.1 h.msgs.1
  obtain ⟨μB, hμB⟩ := Option.ne_none_iff_exists'.1 h.msgs.2.1
  obtain ⟨μK, hμK⟩ := Option.ne_none_iff_exists'.1 h.msgs.2.2
  have hfresh := Reachable.fresh hr
  -- Alice's data
  obtain ⟨hA, gA, mA, sA, tdA, bA, eA⟩ := raw_phase (F := F) (hw := hw) (n := nA) (S := { S with height := loadA }) h.isA h.classA.1 h.hashA htA newA h.rows h.lengthA fAS
    (by rw [h.moduloA]; exact h.field) fA h.pointsA (by rw [h.degreeA, h.count]) (Or.inr (List.ne_nil_of_length_pos (by simp only; omega)))
  let w1 := w.afterRaw alice A la bitsA hA gA u mA
  have p1 : w1.party bob = some B := by
    change upd w.party alice _ bob = _; rw [upd_ne _ _ nAB]; exact h.isB
  have t1 : w1.table B.table = some tB := by
    change upd w.table A.table _ B.table = _; rw [upd_ne _ _ (Ne.symm h.tables)]; exact htB
  have live1 : GenState.Live (B.autoIndex, B.autoSeed, w1.crand) := by
    refine Or.inr (List.ne_nil_of_length_pos ?_)
    change 0 < gA.2.2.length
    rcases tdA (Or.inl hd) with h | ⟨-, h⟩ <;> omega
  obtain ⟨hB, gB, mB, sB, -, bB, eB⟩ := raw_phase (F := F) (hw := hw) (n := nB) (S := { S with height := loadB }) p1 h.classB.1 h.hashB t1 newB h.rows h.lengthB fBS
    (by rw [h.moduloB]; exact h.field) fB h.pointsB (by rw [h.degreeB, h.count]) live1
  let w2 := w1.afterRaw bob B lb bitsB hB gB u mB
  let A' := A.withRaw la bitsA u w.next gA
  let B' := B.withRaw lb bitsB u (w.next + 1) gB
  have a2 : w2.party alice = some A' := by
    change upd (upd w.party alice _) bob _ alice = _
    rw [upd_ne _ _ (Ne.symm nAB), upd_same]; rfl
  have b2 : w2.party bob = some B' := upd_same _ _ _
  have s2 : w2.party cloud = some S := by
    change upd (upd w.party alice _) bob _ cloud = _
    rw [upd_ne _ _ (Ne.symm nBS), upd_ne _ _ nAS]; exact h.isS
  -- outsourcing
  have o3 := outsource_run (D := D) (F := F) (hw := hw) (w := w2) (len := lenA) a2 s2 (show w2.msg kA = some μA from hμA) h.classS.1
    h.classA.2 h.idAS h.knowSA
  let w3 := w2.outsourced cloud S kA (outMsg μA A'.id A'.blindedData lenA) A'.id
  let S3 := S.storing A.id kA
  have b3 : w3.party bob = some B' := by
    change upd w2.party cloud _ bob = _; rw [upd_ne _ _ nBS]; exact b2
  have s3 : w3.party cloud = some S3 := upd_same _ _ _
  have m3 : w3.msg kB = some μB := by
    change upd w.msg kA _ kB = _; rw [upd_ne _ _ (Ne.symm h.objects.1)]; exact hμB
  have o4 := outsource_run (D := D) (F := F) (hw := hw) (w := w3) (len := lenB) b3 s3 m3 h.classS.1 h.classB.2 h.idBS h.knowSB
  let w4 := w3.outsourced cloud S3 kB (outMsg μB B'.id B'.blindedData lenB) B'.id
  let S' := S3.storing B.id kB
  have m4 : w4.msg k = some μK := by
    change upd (upd w.msg kA _) kB _ k = _
    rw [upd_ne _ _ h.objects.2.2, upd_ne _ _ h.objects.2.1]; exact hμK
  let w5 := w4.asked k μK B.id B.secret
  have hrun : w.runCalls D F hw (sessionTwo alice bob cloud A B kA kB k la lb bitsA bitsB nA nB lenA lenB) =
      w5.runCalls D F hw [.send bob alice (some k)] := by
    unfold sessionTwo
    rw [List.append_assoc, List.append_assoc, List.cons_append, List.cons_append, List.nil_append, runCalls_step sA, runCalls_step sB]
    refine (runCalls_append _ _ o3).trans ((runCalls_append _ _ o4).trans ?_)
    exact ask_run m4
  have hpre : w.runCalls D F hw (beforeAskingTwo alice bob cloud A B kA kB k la lb bitsA bitsB nA nB lenA lenB) = .ok w5 := by
    unfold beforeAskingTwo
    rw [List.append_assoc, List.append_assoc, List.cons_append, List.cons_append, List.nil_append, runCalls_step sA, runCalls_step sB]
    refine (runCalls_append _ _ o3).trans ((runCalls_append _ _ o4).trans ?_)
    rw [runCalls_step (step_msgType m4), runCalls_step (step_msgId (setMsg_msg _ _ _)), setMsg_setMsg,
      runCalls_step (step_msgBytes (setMsg_msg _ _ _))]
    change Except.ok _ = Except.ok (w4.asked k μK B.id B.secret)
    unfold World.setMsg World.asked askMsg
    simp only [upd_upd]
  have hr5 : w5.Reachable D F hw := Reachable.runCalls hr hpre
  -- the last state
  have a5 : w5.party alice = some A' := by
    change upd (upd w2.party cloud _) cloud _ alice = _
    rw [upd_ne _ _ (Ne.symm nAS), upd_ne _ _ (Ne.symm nAS)]; exact a2
  have b5 : w5.party bob = some B' := by
    change upd w3.party cloud _ bob = _; rw [upd_ne _ _ nBS]; exact b3
  have s5 : w5.party cloud = some S' := upd_same _ _ _
  have c5A : w5.cell w.next = some (.matrix mA) := by
    change upd (upd (upd w.cell w.next _) (w.next + 1) _) (w.next + 1 + 1) _ w.next = _
    rw [upd_ne _ _ (Nat.ne_of_lt (Nat.lt_succ_of_lt (Nat.lt_succ_self _))), upd_ne _ _ (Nat.ne_of_lt (Nat.lt_succ_self _)), upd_same]
  have c5B : w5.cell (w.next + 1) = some (.matrix mB) := by
    change upd (upd (upd w.cell w.next _) (w.next + 1) _) (w.next + 1 + 1) _ (w.next + 1) = _
    rw [upd_ne _ _ (Nat.ne_of_lt (Nat.lt_succ_self _)), upd_same]
  have c5K : w5.cell (w.next + 1 + 1) = some (.bytes (clientRequestData B.id B.secret)) := upd_same _ _ _
  have k5A : w5.msg kA = some (outMsg μA A.id (some w.next) lenA) := by
    change upd (upd (upd w.msg kA _) kB _) k _ kA = _
    rw [upd_ne _ _ (Ne.symm h.objects.2.1), upd_ne _ _ h.objects.1, upd_same]; rfl
  have k5B : w5.msg kB = some (outMsg μB B.id (some (w.next + 1)) lenB) := by
    change upd (upd (upd w.msg kA _) kB _) k _ kB = _
    rw [upd_ne _ _ (Ne.symm h.objects.2.2), upd_same]; rfl
  have k5K : w5.msg k = some (askMsg μK B.id (w.next + 1 + 1) (clientRequestData B.id B.secret).length) := upd_same _ _ _
  have types : ∀ r, (w5.party r).map (·.type) = (w.party r).map (·.type) := by
    intro r
    by_cases h1 : r = alice
    · subst h1; rw [a5, h.isA]; rfl
    by_cases h2 : r = bob
    · subst h2; rw [b5, h.isB]; rfl
    by_cases h3 : r = cloud
    · subst h3; rw [s5, h.isS]; rfl
    · change (upd (upd (upd (upd w.party alice _) bob _) cloud _) cloud _ r).map _ = _
      rw [upd_ne _ _ h3, upd_ne _ _ h3, upd_ne _ _ h2, upd_ne _ _ h1]
  have unk : ∀ P : Party p, P.unknowns = u → P.getUnknowns D P.degree = .ok u := by
    intro P hP
    unfold Party.getUnknowns
    rw [hP, if_neg]
    rw [h.count]; have := h.columns; omega
  have stA : mapFind A.id S'.stored = some (.user kA) := by
    change mapFind A.id (mapInsert B.id _ (mapInsert A.id _ _)) = _
    rw [mapFind_insert_ne _ _ h.idAB, mapFind_insert_same]
  have stB : mapFind B.id S'.stored = some (.user kB) := mapFind_insert_same _ _ _
  refine ⟨w5, A', B', S', hA.itemsAt, hB.itemsAt, hrun, ?_, hr5, rfl, rfl, rfl, rfl, ⟨rfl, rfl, rfl, rfl, rfl, rfl, by rw [k5K]; exact Option.some_ne_none _,
    fun _ _ h => h.transport rfl types, stA, stB, rfl, rfl⟩, ?_, ⟨hpre, rfl, rfl, rfl, ⟨_, c5A⟩, ⟨_, c5B⟩, ⟨_, c5K⟩, fun a ha => ?_, ⟨_, k5A, rfl⟩, ⟨_, k5B, rfl⟩⟩⟩
  · exact ⟨{
      isA := a5, isB := b5, isS := s5, classA := h.classA, classB := h.classB, classS := h.classS
      idAB := h.idAB, idAS := h.idAS, idBS := h.idBS, nulA := h.nulA, nulB := h.nulB
      knowAB := h.knowAB, knowBA := h.knowBA, knowBS := h.knowBS, knowSA := h.knowSA, knowSB := h.knowSB
      chosen := h.chosen.transport rfl types
      field := h.field, fieldA := h.fieldA, moduloA := h.moduloA, fieldB := h.fieldB, moduloB := h.moduloB
      lengthA := h.lengthA, lengthB := h.lengthB, degreeA := h.degreeA, degreeB := h.degreeB, heightA := h.heightA
      heightB := h.heightB, rows := h.rows, columns := h.columns
      pointsA := unk A' rfl
      pointsS := h.pointsS
      pointsB := rfl
      count := h.count
      storesA := ⟨kA, _, stA, k5A, fun j i hj hi => by
        rw [show (outMsg μA A.id (some w.next) lenA).data = some w.next from rfl, matAt_new c5A,
          eA j i (by rw [h.lengthA]; exact hj) (by rw [h.degreeA]; exact hi)]
        rfl⟩
      storesB := ⟨kB, _, stB, k5B, fun j i hj hi => by
        rw [show (outMsg μB B.id (some (w.next + 1)) lenB).data = some (w.next + 1) from rfl, matAt_new c5B,
          eB j i (by rw [h.lengthB]; exact hj) (by rw [h.degreeB]; exact hi)]
        rfl⟩
      bits := rfl
      request := ⟨_, ntl, {
        receiver := a5, msg := k5K, notSelf := Ne.symm h.idAB, sender := h.knowAB, object := b5
        known := by unfold Party.hasAuthenticated; rw [show A'.getPartyById B'.id = some bob from h.knowAB]; rfl
        helper := h.classA.1, requester := h.classB.2, request := rfl
        buffer := by
          change w5.bytesAt (some (w.next + 1 + 1)) = _
          unfold World.bytesAt
          simp only [c5K]; rfl
        claims := clientRequest_claims h.nulB _
        draws := hk }⟩ }, h.first⟩
  · intro j hj
    refine ⟨?_, ?_, (bA j hj).1, (bB j hj).1, (bA j hj).2, (bB j hj).2⟩
    · have e : w5.table A.table = some hA := by
        change upd (upd w.table A.table _) B.table _ A.table = _
        rw [upd_ne _ _ h.tables, upd_same]
      unfold World.bucket HashBuckets.itemsAt
      rw [e]; simp only
      cases hA.buckets[j]? <;> rfl
    · have e : w5.table B.table = some hB := upd_same _ _ _
      unfold World.bucket HashBuckets.itemsAt
      rw [e]; simp only
      cases hB.buckets[j]? <;> rfl
  · change upd (upd (upd w.cell w.next _) (w.next + 1) _) (w.next + 1 + 1) _ a = _
    rw [upd_ne _ _ (Nat.ne_of_lt (Nat.lt_succ_of_lt (Nat.lt_succ_of_lt ha))), upd_ne _ _ (Nat.ne_of_lt (Nat.lt_succ_of_lt ha)),
      upd_ne _ _ (Nat.ne_of_lt ha)]

/-- Up to the request, with the arrays that exist then, whatever Bob's secret is. -/
theorem session_ready_any {D : Digest} {F : Factoring p} {hw : Nat} {w : World p} (hr : w.Reachable D F hw) {alice bob cloud : Ref}
    {A B S : Party p} {kA kB k : Nat} {alg : HashAlg (ZMod p)} {d : ZMod p → List Byte} {u : List (ZMod p)}
    (h : PreparedAny D w alice bob cloud A B S kA kB k alg d u) {la lb : List Int} {bits : Nat} (fA : Fits d S bits la)
    (fB : Fits d S bits lb) (hd : 2 ≤ w.crand.length) {key : Nat} {ntl : List Nat} (hk : drawKey w.ntl = .ok (key, ntl))
    (nA nB lenA lenB : Nat) :
    ∃ (w5 : World p) (A' B' S' : Party p) (iA iB : Nat → List (ZMod p)), 
      w.runCalls D F hw (session alice bob cloud A B kA kB k la lb bits nA nB lenA lenB) =
        w5.runCalls D F hw [.send bob alice (some k)] ∧
      (AskedAny D w5 alice bob cloud A' B' S' k key u (fun j => rootsPoly (iA j)) (fun j => rootsPoly (iB j)) bits ∧ B'.q = none) ∧
      w5.Reachable D F hw ∧ S'.length = S.length ∧ S'.degree = S.degree ∧ S'.height = S.height ∧ S'.fieldsize = S.fieldsize ∧
      (A'.rawDataBits = some bits ∧ A'.secret = A.secret ∧ A'.id = A.id ∧ B'.id = B.id ∧ B'.secret = B.secret ∧ w5.ntl = w.ntl ∧
        w5.msg k ≠ none ∧ (∀ name c, SmallestServer w B name c → SmallestServer w5 B' name c) ∧
        mapFind A'.id S'.stored = some (.user kA) ∧ mapFind B'.id S'.stored = some (.user kB) ∧ S'.id = S.id ∧ B'.t = B.t) ∧
      (∀ j, j < S.length → w5.bucket A.table j = iA j ∧ w5.bucket B.table j = iB j ∧ (iA j).length = S.height ∧ (iB j).length = S.height ∧
        (∃ zs, iA j = inBucket d S.length (paddedAs S bits la) j ++ zs) ∧
        ∃ zs, iB j = inBucket d S.length (paddedAs S bits lb) j ++ zs) ∧
      (w.runCalls D F hw (beforeAsking alice bob cloud A B kA kB k la lb bits nA nB lenA lenB) = .ok w5 ∧
        A'.blindedData = some w.next ∧ B'.blindedData = some (w.next + 1) ∧ w5.next = w.next + 3 ∧
        (∃ m, w5.cell w.next = some (.matrix m)) ∧ (∃ m, w5.cell (w.next + 1) = some (.matrix m)) ∧
        (∃ b, w5.cell (w.next + 2) = some (.bytes b)) ∧ (∀ a, a < w.next → w5.cell a = w.cell a) ∧
        (∃ μ, w5.msg kA = some μ ∧ μ.data = some w.next) ∧ ∃ μ, w5.msg kB = some μ ∧ μ.data = some (w.next + 1)) := by
  exact session_ready_two hr h.two fA fB hd hk nA nB lenA lenB

/-- Up to the request, with the arrays that exist then. -/
theorem session_ready' {D : Digest} {F : Factoring p} {hw : Nat} {w : World p} (hr : w.Reachable D F hw) {alice bob cloud : Ref}
    {A B S : Party p} {kA kB k : Nat} {alg : HashAlg (ZMod p)} {d : ZMod p → List Byte} {u : List (ZMod p)}
    (h : Prepared D w alice bob cloud A B S kA kB k alg d u) {la lb : List Int} {bits : Nat} (fA : Fits d S bits la)
    (fB : Fits d S bits lb) (hd : 2 ≤ w.crand.length) {key : Nat} {ntl : List Nat} (hk : drawKey w.ntl = .ok (key, ntl))
    (nA nB lenA lenB : Nat) :
    ∃ (w5 : World p) (A' B' S' : Party p) (iA iB : Nat → List (ZMod p)), 
      w.runCalls D F hw (session alice bob cloud A B kA kB k la lb bits nA nB lenA lenB) =
        w5.runCalls D F hw [.send bob alice (some k)] ∧
      RequestReady D w5 alice bob cloud A' B' S' k key u (fun j => rootsPoly (iA j)) (fun j => rootsPoly (iB j)) bits ∧
      w5.Reachable D F hw ∧ S'.length = S.length ∧ S'.degree = S.degree ∧ S'.height = S.height ∧ S'.fieldsize = S.fieldsize ∧
      (A'.rawDataBits = some bits ∧ A'.secret = A.secret ∧ A'.id = A.id ∧ B'.id = B.id ∧ B'.secret = B.secret ∧ w5.ntl = w.ntl ∧
        w5.msg k ≠ none ∧ (∀ name c, SmallestServer w B name c → SmallestServer w5 B' name c) ∧
        mapFind A'.id S'.stored = some (.user kA) ∧ mapFind B'.id S'.stored = some (.user kB) ∧ S'.id = S.id ∧ B'.t = B.t) ∧
      (∀ j, j < S.length → w5.bucket A.table j = iA j ∧ w5.bucket B.table j = iB j ∧ (iA j).length = S.height ∧ (iB j).length = S.height ∧
        (∃ zs, iA j = inBucket d S.length (paddedAs S bits la) j ++ zs) ∧
        ∃ zs, iB j = inBucket d S.length (paddedAs S bits lb) j ++ zs) ∧
      (w.runCalls D F hw (beforeAsking alice bob cloud A B kA kB k la lb bits nA nB lenA lenB) = .ok w5 ∧
        A'.blindedData = some w.next ∧ B'.blindedData = some (w.next + 1) ∧ w5.next = w.next + 3 ∧
        (∃ m, w5.cell w.next = some (.matrix m)) ∧ (∃ m, w5.cell (w.next + 1) = some (.matrix m)) ∧
        (∃ b, w5.cell (w.next + 2) = some (.bytes b)) ∧ (∀ a, a < w.next → w5.cell a = w.cell a) ∧
        (∃ μ, w5.msg kA = some μ ∧ μ.data = some w.next) ∧ ∃ μ, w5.msg kB = some μ ∧ μ.data = some (w.next + 1)) := by
  obtain ⟨w5, A', B', S', iA, iB, h1, h2, h3, h4, h5, h6, h7, h8, h9⟩ := session_ready_any hr h.any fA fB hd hk nA nB lenA lenB
  exact ⟨w5, A', B', S', iA, iB, h1, ⟨⟨h2.1, by rw [h8.2.2.2.2.1]; exact h.secret⟩, h2.2⟩, h3, h4, h5, h6, h7, h8, h9⟩

/-- Up to the request. -/
theorem session_ready {D : Digest} {F : Factoring p} {hw : Nat} {w : World p} (hr : w.Reachable D F hw) {alice bob cloud : Ref}
    {A B S : Party p} {kA kB k : Nat} {alg : HashAlg (ZMod p)} {d : ZMod p → List Byte} {u : List (ZMod p)}
    (h : Prepared D w alice bob cloud A B S kA kB k alg d u) {la lb : List Int} {bits : Nat} (fA : Fits d S bits la)
    (fB : Fits d S bits lb) (hd : 2 ≤ w.crand.length) {key : Nat} {ntl : List Nat} (hk : drawKey w.ntl = .ok (key, ntl))
    (nA nB lenA lenB : Nat) :
    ∃ (w5 : World p) (A' B' S' : Party p) (iA iB : Nat → List (ZMod p)), 
      w.runCalls D F hw (session alice bob cloud A B kA kB k la lb bits nA nB lenA lenB) =
        w5.runCalls D F hw [.send bob alice (some k)] ∧
      RequestReady D w5 alice bob cloud A' B' S' k key u (fun j => rootsPoly (iA j)) (fun j => rootsPoly (iB j)) bits ∧
      w5.Reachable D F hw ∧ S'.length = S.length ∧ S'.degree = S.degree ∧ S'.height = S.height ∧ S'.fieldsize = S.fieldsize ∧
      (A'.rawDataBits = some bits ∧ A'.secret = A.secret ∧ A'.id = A.id ∧ B'.id = B.id ∧ B'.secret = B.secret ∧ w5.ntl = w.ntl ∧
        w5.msg k ≠ none ∧ (∀ name c, SmallestServer w B name c → SmallestServer w5 B' name c) ∧
        mapFind A'.id S'.stored = some (.user kA) ∧ mapFind B'.id S'.stored = some (.user kB) ∧ S'.id = S.id ∧ B'.t = B.t) ∧
      (∀ j, j < S.length → w5.bucket A.table j = iA j ∧ w5.bucket B.table j = iB j ∧ (iA j).length = S.height ∧ (iB j).length = S.height ∧
        (∃ zs, iA j = inBucket d S.length (paddedAs S bits la) j ++ zs) ∧
        ∃ zs, iB j = inBucket d S.length (paddedAs S bits lb) j ++ zs) := by
  obtain ⟨w5, A', B', S', iA, iB, h1, h2, h3, h4, h5, h6, h7, h8, h9, -⟩ := session_ready' hr h fA fB hd hk nA nB lenA lenB
  exact ⟨w5, A', B', S', iA, iB, h1, h2, h3, h4, h5, h6, h7, h8, h9⟩

end EoPsi
