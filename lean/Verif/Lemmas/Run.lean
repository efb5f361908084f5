import Verif.Props.Mask
import Verif.Props.Cloud
import Verif.Props.Codec
import Verif.Spec.Run

/-! # A complete run, step by step -/

set_option linter.unusedSectionVars false

namespace EoPsi

open Polynomial ZZpPolynomials

variable {p : Nat} [Fact p.Prime]

/-- The matrix of differences that `intersect` computes. -/
def diffC (w : World p) (t q : Ptr) (degree length : Nat) : C (List (List (ZMod p))) :=
  forC (fun j => forC (fun i => do
    let x ← w.matAt t j i
    let y ← w.matAt q j i
    .ok (x - y)) degree 0) length 0

theorem intersect_run {D : Digest} {F : Factoring p} {r : Ref} {w : World p} {P : Party p} (hP : w.party r = some P)
    {bits : Nat} (hb : P.rawDataBits = some bits) : intersect D F r w =
      (if P.q = none ∨ P.t = none then (pure false : M p Bool)
      else M.liftC (diffC w P.t P.q P.degree P.length) >>= fun diff =>
        M.liftC ((ZZpPolynomials.new (padSizeOf P.fieldbits bits)).oneShot (F.at w.next) P.unknowns diff P.length) >>= fun o =>
        M.setParty r (fun P' => { P' with unknowns := P.unknowns, setcap := o.roots }) >>= fun _ => pure true) w := by
  unfold intersect
  rw [M.run_bind, M.run_party hP]
  simp only [hb]
  split
  · rfl
  · rw [M.run_bind, M.run_get]
    simp only
    rw [getUnknowns_zero]
    rfl

/-- One half is missing: nothing happens. -/
theorem intersectAndDelete_missing {D : Digest} {F : Factoring p} {r : Ref} {w : World p} {P : Party p}
    (hP : w.party r = some P) {bits : Nat} (hb : P.rawDataBits = some bits) (h : P.q = none ∨ P.t = none) :
    intersectAndDelete D F r w = .ok () w := by
  unfold intersectAndDelete
  rw [M.run_bind, intersect_run hP hb, if_pos h]
  rfl

/-- `setRawData` was never called: an indeterminate value is read. -/
theorem intersectAndDelete_uninit {D : Digest} {F : Factoring p} {r : Ref} {w : World p} {P : Party p}
    (hP : w.party r = some P) (hb : P.rawDataBits = none) :
    intersectAndDelete D F r w = .fault (.ub .uninitialised) := by
  unfold intersectAndDelete intersect
  rw [M.run_bind, M.run_bind, M.run_party hP]
  simp only [hb]
  rfl

/-- The state after a completed intersection. -/
def World.found (w : World p) (r : Ref) (P : Party p) (a b : Addr) (cap : List Nat) : World p :=
  { w with party := upd w.party r (some { P with setcap := cap }), cell := upd (upd w.cell a none) b none }

/-- Both halves are there. -/
theorem intersectAndDelete_run {D : Digest} {F : Factoring p} {r : Ref} {w : World p} {P : Party p}
    (hP : w.party r = some P) {bits : Nat} (hb : P.rawDataBits = some bits) {a b : Addr} (ht : P.t = some a) (hq : P.q = some b)
    (hab : a ≠ b) {ma mb : List (List (ZMod p))} (ha : w.cell a = some (.matrix ma)) (hb' : w.cell b = some (.matrix mb))
    {diff : List (List (ZMod p))} (hd : diffC w P.t P.q P.degree P.length = .ok diff) {o : ZZpPolynomials p}
    (ho : (ZZpPolynomials.new (padSizeOf P.fieldbits bits)).oneShot (F.at w.next) P.unknowns diff P.length = .ok o) :
    intersectAndDelete D F r w = .ok () (w.found r P a b o.roots) := by
  unfold intersectAndDelete
  rw [M.run_bind, intersect_run hP hb, if_neg (by rw [ht, hq]; simp), M.run_bind, hd, M.run_liftC_ok]
  simp only
  rw [M.run_bind, ho, M.run_liftC_ok]
  simp only
  rw [M.run_bind, M.run_setParty _ hP]
  simp only [M.run_pure, if_true]
  rw [M.run_bind, M.run_party (upd_same _ _ _)]
  simp only [ht, hq]
  rw [M.run_bind]
  simp only [M.deleteMat, ha, upd_ne _ _ (Ne.symm hab), hb', World.found, ht, hq]

theorem intersectAndDelete_diff_error {D : Digest} {F : Factoring p} {r : Ref} {w : World p} {P : Party p}
    (hP : w.party r = some P) {bits : Nat} (hb : P.rawDataBits = some bits) {a b : Addr} (ht : P.t = some a) (hq : P.q = some b)
    {f : Fault} (hd : diffC w P.t P.q P.degree P.length = .error f) :
    intersectAndDelete D F r w = .fault f := by
  unfold intersectAndDelete
  rw [M.run_bind, intersect_run hP hb, if_neg (by rw [ht, hq]; simp), M.run_bind, hd, M.run_liftC_error]

/-- The first value decides, if it cannot be read. -/
theorem diffC_first_error {w : World p} {t q : Ptr} {d L : Nat} (hd : 0 < d) (hL : 0 < L) {f : Fault}
    (h : w.matAt t 0 0 = .error f ∨ (∃ v, w.matAt t 0 0 = .ok v) ∧ w.matAt q 0 0 = .error f) : diffC w t q d L = .error f := by
  obtain ⟨d, rfl⟩ := Nat.exists_eq_add_of_lt hd
  obtain ⟨L, rfl⟩ := Nat.exists_eq_add_of_lt hL
  unfold diffC
  rw [Nat.zero_add, Nat.zero_add, forC, forC]
  rcases h with h | ⟨⟨v, h⟩, h'⟩
  · rw [h]; rfl
  · rw [h, h']; rfl

/-- with the first half -/
def Party.gotT (P : Party p) (x : Ptr) : Party p := { P with t := x }
/-- with the second half -/
def Party.gotQ (P : Party p) (x : Ptr) : Party p := { P with q := x }

theorem handleOutput_run {D : Digest} {F : Factoring p} {r : Ref} {μ : Msg} {w : World p} {P : Party p}
    (hP : w.party r = some P) {v : ZMod p} (hv : w.matAt μ.data 0 0 = .ok v) : handleOutput D F r μ w =
      intersectAndDelete D F r { w with party := upd w.party r (some (P.gotT μ.data)) } := by
  unfold handleOutput
  rw [M.run_bind, M.run_setParty _ hP]
  simp only
  rw [M.run_bind, M.run_get]
  simp only
  rw [M.run_bind, show World.matAt (p := p) { w with party := upd w.party r (some { P with t := μ.data }) } μ.data 0 0 = .ok v from hv,
    M.run_liftC_ok]
  rfl

theorem handlePolynomial_run {D : Digest} {F : Factoring p} {r : Ref} {μ : Msg} {w : World p} {P : Party p}
    (hP : w.party r = some P) {v : ZMod p} (hv : w.matAt μ.data 0 0 = .ok v) : handlePolynomial D F r μ w =
      intersectAndDelete D F r { w with party := upd w.party r (some (P.gotQ μ.data)) } := by
  unfold handlePolynomial
  rw [M.run_bind, M.run_setParty _ hP]
  simp only
  rw [M.run_bind, M.run_get]
  simp only
  rw [M.run_bind, show World.matAt (p := p) { w with party := upd w.party r (some { P with q := μ.data }) } μ.data 0 0 = .ok v from hv,
    M.run_liftC_ok]
  rfl

theorem handleOutput_error {D : Digest} {F : Factoring p} {r : Ref} {μ : Msg} {w : World p} {P : Party p}
    (hP : w.party r = some P) {f : Fault} (hv : w.matAt μ.data 0 0 = .error f) : handleOutput D F r μ w = .fault f := by
  unfold handleOutput
  rw [M.run_bind, M.run_setParty _ hP]
  simp only
  rw [M.run_bind, M.run_get]
  simp only
  rw [M.run_bind, show World.matAt (p := p) { w with party := upd w.party r (some { P with t := μ.data }) } μ.data 0 0 = .error f from hv,
    M.run_liftC_error]

theorem handlePolynomial_error {D : Digest} {F : Factoring p} {r : Ref} {μ : Msg} {w : World p} {P : Party p}
    (hP : w.party r = some P) {f : Fault} (hv : w.matAt μ.data 0 0 = .error f) : handlePolynomial D F r μ w = .fault f := by
  unfold handlePolynomial
  rw [M.run_bind, M.run_setParty _ hP]
  simp only
  rw [M.run_bind, M.run_get]
  simp only
  rw [M.run_bind, show World.matAt (p := p) { w with party := upd w.party r (some { P with q := μ.data }) } μ.data 0 0 = .error f from hv,
    M.run_liftC_error]

/-! ## The cloud's part -/

theorem matAt_new {w : World p} {m : List (List (ZMod p))} {a : Addr} (h : w.cell a = some (.matrix m)) (j i : Nat) :
    w.matAt (some a) j i = match entry m j i with | some v => .ok v | none => .error (.ub .outOfBounds) := by
  unfold World.matAt entry
  simp only [h]
  cases m[j]? with
  | none => rfl
  | some row =>
    simp only [Option.bind_some]
    cases row[i]? <;> rfl

theorem entry_tq {D : Digest} {P : Party p} {u : List (ZMod p)} {key : Int} {a b : Nat → Nat → ZMod p} {j i : Nat}
    (hj : j < P.length) (hi : i < P.degree) : entry (tqMatrix D P u key a b) j i = some
      (keyVal D P.fieldbits key (j * P.degree + i) + a j i * (omegaA D P key j).eval (u.getD i 0) +
        b j i * (omegaB D P key j).eval (u.getD i 0)) := by
  unfold entry tqMatrix
  rw [List.getElem?_map, List.getElem?_range hj, Option.map_some, Option.bind_some, List.getElem?_map,
    List.getElem?_range hi, Option.map_some]

/-- The server's own reply message. -/
def Party.replied (S : Party p) (u : List (ZMod p)) (a : Addr) : Party p :=
  { S with unknowns := u, msgToClient := ((S.msgToClient.setData (some a) 1).setType .output).setPartyId S.id }

/-- The state after the cloud has served the request and the output has arrived at `b`. -/
def World.served (w : World p) (c b : Ref) (S B : Party p) (u : List (ZMod p)) (T : List (List (ZMod p))) (x : Addr) : World p :=
  { w with
    next := w.next + 1
    cell := upd (upd w.cell w.next (some (.matrix T))) x none
    party := upd (upd w.party c (some (S.replied u w.next))) b (some (B.gotT (some w.next))) }

theorem cloud_phase {D : Digest} {F : Factoring p} {n : Nat} {w : World p} {c r b : Ref} {m : MRef} {S A B : Party p} {μ : Msg}
    {key bits : Nat} {x : Addr} (hin : Incoming w c m S μ r A) (hS : S.cls = .server) (hk : S.hasAuthenticated A.id = true)
    (hA : A.type = .client) (hty : μ.type = .cloudRequest) (hx : μ.data = some x)
    (hbuf : w.cell x = some (.bytes (requestData A.id B.id key))) (nA : NulFree A.id) (nB : NulFree B.id) (hkey : key < 2 ^ keyBits)
    (hb : S.getPartyById B.id = some b) (hB : w.party b = some B) (hBc : B.cls = .client) (hbc : b ≠ c)
    (hBS : B.getPartyById S.id = some c) (hST : S.type = .server) (hid : S.id ≠ B.id) (hq : B.q = none)
    (hbits : B.rawDataBits = some bits) (hxn : x ≠ w.next)
    {mA mB : MRef} {μA μB : Msg} (sA : mapFind A.id S.stored = some mA) (sB : mapFind B.id S.stored = some mB)
    (gA : w.msgAt mA = some μA) (gB : w.msgAt mB = some μB) {u : List (ZMod p)} {T : List (List (ZMod p))}
    (hT : computeTOrQ D S key (w.matAt μA.data) (w.matAt μB.data) = .ok (u, T)) {v : ZMod p} (hT0 : entry T 0 0 = some v) :
    receiveN D F (n + 2) c m w = .ok () (w.served c b S B u T x) := by
  rw [receiveN_eq hin.receiver, hS]
  simp only
  rw [serverReceive_eq hin, if_neg (by rw [hk, hA, hty]; decide), hty]
  simp only
  rw [handleCloudRequest_eq hin.receiver hin.object hA (buf := requestData A.id B.id key) (by rw [hx]; simp [World.bytesAt, hbuf])
    (requestData_reads nA nB hkey), M.run_bind]
  have hio : intersectionOutput D S A.id B.id key w = .ok (u, T) w := by
    unfold intersectionOutput
    rw [sA, sB]
    simp only
    rw [M.run_bind, M.run_msg gA]; simp only
    rw [M.run_bind, M.run_msg gB]; simp only
    rw [M.run_bind, M.run_get]; simp only
    rw [hT, M.run_liftC_ok]
  rw [hio]
  simp only
  rw [M.run_bind, M.run_alloc]
  simp only
  rw [M.run_bind, M.run_setParty (w := { w with cell := upd w.cell w.next (some (.matrix T)), next := w.next + 1 }) (P := S) _
    hin.receiver]
  simp only [hb]
  rw [M.run_bind]
  have hleaf : receiveN D F (n + 1) b (.toClient c) { w with
      cell := upd w.cell w.next (some (.matrix T)), next := w.next + 1, party := upd w.party c (some (S.replied u w.next)) } =
      .ok () { w with
        cell := upd w.cell w.next (some (.matrix T)), next := w.next + 1,
        party := upd (upd w.party c (some (S.replied u w.next))) b (some (B.gotT (some w.next))) } := by
    rw [receiveN_eq (P := B) (by simp only [upd_ne _ _ hbc]; exact hB), hBc]
    simp only
    rw [clientReceive_eq (P := B) (μ := (S.replied u w.next).msgToClient) (s := c) (S := S.replied u w.next)
      ⟨by simp only [upd_ne _ _ hbc]; exact hB, by simp [World.msgAt], hid, hBS, by simp⟩]
    rw [if_neg (by
      rw [show (S.replied u w.next).id = S.id from rfl, show (S.replied u w.next).type = .server from hST]
      unfold Party.hasAuthenticated; rw [hBS]; exact Bool.noConfusion)]
    rw [show (S.replied u w.next).msgToClient.type = .output from rfl]
    simp only
    rw [handleOutput_run (P := B) (v := v) (by simp only [upd_ne _ _ hbc]; exact hB)
      (by rw [show (S.replied u w.next).msgToClient.data = some w.next from rfl, matAt_new (m := T) (by simp), hT0])]
    rw [intersectAndDelete_missing (P := B.gotT (some w.next)) (upd_same _ _ _) hbits (Or.inl hq)]
    rfl
  have := hleaf
  unfold Party.replied at this
  rw [this]
  simp only [M.deleteBytes, hx, upd_ne _ _ hxn, hbuf]
  rfl


/-! ## Alice's part -/

theorem Omega_eq (D : Digest) (bits : Nat) (key : Int) (H base : Nat) :
    Omega (p := p) D bits key H base = omegaPoly (keyVal D bits key) H base := by
  unfold Omega omegaPoly keyVal
  simp only [prfVal_eq]

theorem combined_eq (D : Digest) (S : Party p) (key : Int) (pA pB : Nat → ZpX p) (j : Nat) :
    combined D S key pA pB j = omegaA D S key j * pA j + omegaB D S key j * pB j := by
  unfold combined omegaA omegaB
  rw [Omega_eq, Omega_eq]; rfl

theorem padMatrix_ok (D : Digest) (P : Party p) (seed : ZMod p) (hg : ZZpPRF.genBits P.modulo P.fieldbits ≠ 0) :
    padMatrix D P seed = .ok ((List.range P.length).map (fun j => (List.range P.degree).map (fun i =>
      padVal D P seed (j * P.degree + i)))) := by
  unfold padMatrix
  rw [forC_ok _ (fun j => (List.range P.degree).map (fun i => padVal D P seed (j * P.degree + i)))]
  · simp
  · intro j _ _
    rw [forC_ok _ (fun i => padVal D P seed (j * P.degree + i))]
    · simp
    · intro i _ _
      rw [prfZZp_ok hg]; rfl

theorem localAt_map {L d : Nat} (f : Nat → Nat → ZMod p) {j i : Nat} (hj : j < L) (hi : i < d) :
    localAt ((List.range L).map (fun j => (List.range d).map (fun i => f j i))) j i = .ok (f j i) := by
  unfold localAt
  rw [getAt_some (v := (List.range d).map (fun i => f j i)) (by simp [hj]), ok_bind, getAt_some (v := f j i) (by simp [hi])]

theorem delegationOutput_ok (D : Digest) (P : Party p) (s key : Int) {u : List (ZMod p)} (hf : P.fieldbits ≠ 0)
    (hg : ZZpPRF.genBits P.modulo P.fieldbits ≠ 0) (hu : P.getUnknowns D P.degree = .ok u) (hul : P.degree ≤ u.length) :
    delegationOutput D P s key = .ok (u, tqMatrix D P u key (fun j i => padVal D P (P.secret : ZMod p) (j * P.degree + i))
      (fun j i => padVal D P (s : ZMod p) (j * P.degree + i))) := by
  unfold delegationOutput
  rw [padMatrix_ok D P _ hg, ok_bind, padMatrix_ok D P _ hg, ok_bind]
  exact computeTOrQ_ok D P key _ _ _ _ hf hu hul (fun j i hj hi => localAt_map _ hj hi) (fun j i hj hi => localAt_map _ hj hi)

/-- with the polynomial message prepared -/
def Party.helped (A : Party p) (u : List (ZMod p)) (b : Addr) : Party p :=
  { A with unknowns := u, q := some b, msgToClient := ((A.msgToClient.setData (some b) 1).setType .polynomial).setPartyId A.id }

/-- with the request prepared -/
def Party.asking (A : Party p) (x : Addr) (n : Nat) : Party p :=
  { A with msgToCloud := ((A.msgToCloud.setData (some x) n).setType .cloudRequest).setPartyId A.id }

/-- The state in which Bob has both halves. -/
def World.helped (w : World p) (alice bob : Ref) (A B : Party p) (u : List (ZMod p)) (Q : List (List (ZMod p))) : World p :=
  { w with
    cell := upd w.cell w.next (some (.matrix Q))
    next := w.next + 1
    party := upd (upd w.party alice (some (A.helped u w.next))) bob (some (B.gotQ (some w.next))) }

theorem poly_phase {D : Digest} {F : Factoring p} {n : Nat} {w : World p} {alice bob : Ref} {A B : Party p}
    {u : List (ZMod p)} {Q : List (List (ZMod p))} (hAB : bob ≠ alice) (hB : w.party bob = some B) (cB : B.cls = .client)
    (tA : A.type = .client) (hid : A.id ≠ B.id) (knows : B.getPartyById A.id = some alice) {v : ZMod p} (hv : entry Q 0 0 = some v) :
    receiveN D F (n + 1) bob (.toClient alice) { w with
      cell := upd w.cell w.next (some (.matrix Q)), next := w.next + 1,
      party := upd w.party alice (some (A.helped u w.next)) } =
    intersectAndDelete D F bob (w.helped alice bob A B u Q) := by
  rw [receiveN_eq (P := B) (by simp only [upd_ne _ _ hAB]; exact hB), cB]
  simp only
  rw [clientReceive_eq (P := B) (μ := (A.helped u w.next).msgToClient) (s := alice) (S := A.helped u w.next)
    ⟨by simp only [upd_ne _ _ hAB]; exact hB, by simp [World.msgAt], hid, knows, by simp⟩]
  rw [if_neg (by
    rw [show (A.helped u w.next).id = A.id from rfl, show (A.helped u w.next).type = .client from tA]
    unfold Party.hasAuthenticated; rw [knows]; exact Bool.noConfusion)]
  rw [show (A.helped u w.next).msgToClient.type = .polynomial from rfl]
  simp only
  rw [handlePolynomial_run (P := B) (v := v) (by simp only [upd_ne _ _ hAB]; exact hB)
    (by rw [show (A.helped u w.next).msgToClient.data = some w.next from rfl, matAt_new (m := Q) (by simp), hv])]
  rfl

theorem matAt_upd {w w' : World p} {x : Ptr} {j i : Nat} {v : ZMod p} (h : w.matAt x j i = .ok v)
    (hc : ∀ a, w.cell a ≠ none → w'.cell a = w.cell a) : w'.matAt x j i = .ok v := by
  unfold World.matAt at *
  cases x with
  | none => simp at h
  | some a =>
    simp only at *
    rw [hc a (by intro h0; rw [h0] at h; simp at h)]
    exact h

theorem matAt_same {w w' : World p} {x : Ptr} {j i : Nat} (hx : ∀ a, x = some a → w'.cell a = w.cell a) :
    w'.matAt x j i = w.matAt x j i := by
  unfold World.matAt
  cases x with
  | none => rfl
  | some a => simp only [hx a rfl]

theorem setParty_after_alloc {W : World p} {r : Ref} {P : Party p} (h : W.party r = some P) (c : Addr → Option (Cell p))
    (n : Addr) (g : Party p → Party p) : M.setParty r g { W with cell := c, next := n } =
      .ok () { W with cell := c, next := n, party := upd W.party r (some (g P)) } := by
  rw [M.run_setParty (w := { W with cell := c, next := n }) g h]

/-- Everything up to the computation of the intersection; the helper reads `s` for Bob's secret. -/
theorem run_phase_any {D : Digest} {F : Factoring p} {hw : Nat} {w : World p} (hr : w.Reachable D F hw) {alice bob cloud : Ref}
    {A B S : Party p} {k key : Nat} {u : List (ZMod p)} {pA pB : Nat → ZpX p} {bits : Nat}
    (h : AskedAny D w alice bob cloud A B S k key u pA pB bits) (first : B.q = none) {s : Int}
    (hs : ∃ b, readBytes (clientRequestData B.id B.secret) (B.id.length + 1) 3 = .ok b ∧ (zzFromBytes b : Int) = s) (x : Ref) :
    ∃ T Q ntl, (∀ j i, j < S.length → i < S.degree → ∃ t q, entry T j i = some t ∧ entry Q j i = some q ∧
        t - q = (combined D S key pA pB j).eval (u.getD i 0) +
          (fieldVal D S.fieldsize (B.secret : ZMod p) (j * S.degree + i) S.fieldbits -
            fieldVal D S.fieldsize (s : ZMod p) (j * S.degree + i) S.fieldbits) * (omegaB D S key j).eval (u.getD i 0) ∧
        q = keyVal D S.fieldbits key (j * S.degree + i) +
          fieldVal D S.fieldsize (A.secret : ZMod p) (j * S.degree + i) S.fieldbits * (omegaA D S key j).eval (u.getD i 0) +
          fieldVal D S.fieldsize (s : ZMod p) (j * S.degree + i) S.fieldbits * (omegaB D S key j).eval (u.getD i 0)) ∧
      drawKey w.ntl = .ok (key, ntl) ∧ send D F x alice (some (.user k)) w = intersectAndDelete D F bob
        (((requested w alice A B key ntl).served cloud bob S B u T w.next).helped alice bob
          (A.asking w.next (requestData A.id B.id key).length) (B.gotT (some (w.next + 1))) u Q) := by
  obtain ⟨μ, ntl, hreq⟩ := h.request
  have hfresh := Reachable.fresh hr
  have nAB : bob ≠ alice := by
    rintro rfl; have e := h.isA; rw [h.isB] at e; exact h.idAB (by rw [Option.some.inj e])
  have nAS : cloud ≠ alice := by
    rintro rfl; have e := h.isA; rw [h.isS] at e; exact h.idAS (by rw [Option.some.inj e])
  have nBS : bob ≠ cloud := by
    rintro rfl; have e := h.isB; rw [h.isS] at e; exact h.idBS (by rw [Option.some.inj e])
  have hkey : key < 2 ^ keyBits := by
    exact (drawKey_ok hreq.draws).2.1
  have fS : S.fieldbits ≠ 0 := (numBits_pos h.field).ne'
  have gb : ZZpPRF.genBits A.modulo A.fieldbits ≠ 0 := genBits_ne_zero (by rw [h.moduloA]; exact h.field) _
  have fAS : A.fieldbits = S.fieldbits := by unfold Party.fieldbits; rw [h.fieldA]
  have fBS : B.fieldbits = S.fieldbits := by unfold Party.fieldbits; rw [h.fieldB]
  -- the cloud's matrix
  obtain ⟨kA, μA, sA, gA, vA⟩ := h.storesA
  obtain ⟨kB, μB, sB, gB, vB⟩ := h.storesB
  let w1 := requested w alice A B key ntl
  have keepcell : ∀ a, w.cell a ≠ none → w1.cell a = w.cell a := fun a ha =>
    upd_ne _ _ (fun e => ha (hfresh a (by rw [e])))
  have hT : computeTOrQ D S key (w1.matAt μA.data) (w1.matAt μB.data) =
      .ok (u, tqMatrix D S u key (blindedBy D A u pA) (blindedBy D B u pB)) :=
    computeTOrQ_ok D S key _ _ _ _ fS h.pointsS (le_of_eq h.count.symm)
      (fun j i hj hi => matAt_upd (vA j i hj hi) keepcell) (fun j i hj hi => matAt_upd (vB j i hj hi) keepcell)
  have hA1 : w1.party alice = some (A.asking w.next (requestData A.id B.id key).length) := upd_same _ _ _
  have hS1 : w1.party cloud = some S := by
    change upd w.party alice _ cloud = _
    rw [upd_ne _ _ nAS]; exact h.isS
  have hB1 : w1.party bob = some B := by
    change upd w.party alice _ bob = _
    rw [upd_ne _ _ nAB]; exact h.isB
  have hcloud := cloud_phase (F := F) (D := D) (n := 0) (w := w1) (c := cloud) (r := alice) (b := bob) (m := .toCloud alice) (S := S)
    (A := A.asking w.next (requestData A.id B.id key).length) (B := B)
    (μ := (A.asking w.next (requestData A.id B.id key).length).msgToCloud) (key := key) (bits := bits) (x := w.next)
    ⟨hS1, by simp only [World.msgAt, hA1]; rfl, h.idAS, h.knowSA, hA1⟩ h.classS.1
    (by unfold Party.hasAuthenticated; rw [show (A.asking _ _).id = A.id from rfl, h.knowSA]; rfl) h.classA.2 rfl rfl
    (show upd w.cell w.next _ w.next = _ from upd_same _ _ _) h.nulA h.nulB hkey h.knowSB hB1 h.classB.1 nBS h.knowBS h.classS.2
    (Ne.symm h.idBS) first h.bits (Nat.succ_ne_self _).symm sA sB gA gB hT
    (entry_tq h.rows h.columns)
  -- Alice's matrix
  have hQ := delegationOutput_ok D (A.asking w.next (requestData A.id B.id key).length) s key (u := u)
    (by rw [show (A.asking _ _).fieldbits = A.fieldbits from rfl, fAS]; exact fS) gb h.pointsA
    (by rw [show (A.asking _ _).degree = A.degree from rfl, h.degreeA, h.count])
  obtain ⟨three, hthree, hval⟩ := hs
  refine ⟨tqMatrix D S u key (blindedBy D A u pA) (blindedBy D B u pB),
    tqMatrix D (A.asking w.next (requestData A.id B.id key).length) u key
      (fun j i => padVal D (A.asking w.next (requestData A.id B.id key).length) (A.secret : ZMod p) (j * A.degree + i))
      (fun j i => padVal D (A.asking w.next (requestData A.id B.id key).length) (s : ZMod p) (j * A.degree + i)), ntl, ?_, hreq.draws, ?_⟩
  rotate_left
  · rw [hreq.send_eq, M.run_bind, hreq.findCloud_some hr h.chosen]
    simp only
    rw [M.run_bind, hthree, M.run_liftC_ok]
    simp only
    rw [M.run_bind]
    have : M.catchP (receiveN D F 2 cloud (.toCloud alice)) (fun _ => M.fail (.exit 2)) w1 = .ok () (w1.served cloud bob S B u
        (tqMatrix D S u key (blindedBy D A u pA) (blindedBy D B u pB)) w.next) := by
      unfold M.catchP; rw [hcloud]
    rw [this]
    simp only
    have hA2 : (w1.served cloud bob S B u (tqMatrix D S u key (blindedBy D A u pA) (blindedBy D B u pB)) w.next).party alice =
        some (A.asking w.next (requestData A.id B.id key).length) := by
      change upd (upd w1.party cloud _) bob _ alice = _
      rw [upd_ne _ _ (Ne.symm nAB), upd_ne _ _ (Ne.symm nAS)]; exact hA1
    rw [M.run_bind, M.run_party hA2]
    simp only
    rw [M.run_bind, hval, hQ, M.run_liftC_ok]
    simp only
    rw [M.run_bind, M.run_alloc]
    simp only
    rw [M.run_bind, setParty_after_alloc hA2]
    simp only
    exact poly_phase (A := A.asking w.next (requestData A.id B.id key).length) (B := B.gotT (some w1.next)) (n := 1) nAB
      (show upd _ bob _ bob = _ from upd_same _ _ _) h.classB.1 h.classA.2 h.idAB h.knowBA
      (entry_tq (P := A.asking w.next (requestData A.id B.id key).length) (by rw [show (A.asking _ _).length = A.length from rfl, h.lengthA]; exact h.rows)
        (by rw [show (A.asking _ _).degree = A.degree from rfl, h.degreeA]; exact h.columns))
  · intro j i hj hi
    refine ⟨_, _, entry_tq hj hi, entry_tq (P := A.asking w.next (requestData A.id B.id key).length) (by rw [show (A.asking _ _).length = A.length from rfl, h.lengthA]; exact hj)
        (by rw [show (A.asking _ _).degree = A.degree from rfl, h.degreeA]; exact hi), ?_⟩
    have e1 : omegaA D (A.asking w.next (requestData A.id B.id key).length) key j = omegaA D S key j := by
      unfold omegaA
      rw [show (A.asking w.next (requestData A.id B.id key).length).fieldbits = S.fieldbits from fAS,
        show (A.asking w.next (requestData A.id B.id key).length).height = S.height from h.heightA,
        show (A.asking w.next (requestData A.id B.id key).length).length = S.length from h.lengthA,
        show (A.asking w.next (requestData A.id B.id key).length).degree = S.degree from h.degreeA]
    have e2 : omegaB D (A.asking w.next (requestData A.id B.id key).length) key j = omegaB D S key j := by
      unfold omegaB
      rw [show (A.asking w.next (requestData A.id B.id key).length).fieldbits = S.fieldbits from fAS,
        show (A.asking w.next (requestData A.id B.id key).length).height = S.height from h.heightA,
        show (A.asking w.next (requestData A.id B.id key).length).length = S.length from h.lengthA,
        show (A.asking w.next (requestData A.id B.id key).length).degree = S.degree from h.degreeA]
    rw [e1, e2, combined_eq, eval_add, eval_mul, eval_mul, show (A.asking w.next (requestData A.id B.id key).length).fieldbits = S.fieldbits from fAS,
      show (A.asking w.next (requestData A.id B.id key).length).degree = S.degree from h.degreeA]
    have p1 : ∀ s idx, padVal D (A.asking w.next (requestData A.id B.id key).length) s idx = fieldVal D S.fieldsize s idx S.fieldbits := by
      intro s idx
      rw [padVal_eq, show (A.asking w.next (requestData A.id B.id key).length).fieldbits = S.fieldbits from fAS,
        show (A.asking w.next (requestData A.id B.id key).length).modulo = S.fieldsize from h.moduloA]
    rw [p1, p1]
    refine ⟨?_, by rw [h.degreeA]⟩
    unfold blindedBy
    rw [fAS, fBS, h.moduloA, h.moduloB, h.degreeA, h.degreeB]
    ring

/-- Everything up to the computation of the intersection. -/
theorem run_phase {D : Digest} {F : Factoring p} {hw : Nat} {w : World p} (hr : w.Reachable D F hw) {alice bob cloud : Ref}
    {A B S : Party p} {k key : Nat} {u : List (ZMod p)} {pA pB : Nat → ZpX p} {bits : Nat}
    (h : RequestReady D w alice bob cloud A B S k key u pA pB bits) (x : Ref) :
    ∃ T Q ntl, (∀ j i, j < S.length → i < S.degree → ∃ t q, entry T j i = some t ∧ entry Q j i = some q ∧
        t - q = (combined D S key pA pB j).eval (u.getD i 0) ∧
        q = keyVal D S.fieldbits key (j * S.degree + i) +
          fieldVal D S.fieldsize (A.secret : ZMod p) (j * S.degree + i) S.fieldbits * (omegaA D S key j).eval (u.getD i 0) +
          fieldVal D S.fieldsize (B.secret : ZMod p) (j * S.degree + i) S.fieldbits * (omegaB D S key j).eval (u.getD i 0)) ∧
      drawKey w.ntl = .ok (key, ntl) ∧ send D F x alice (some (.user k)) w = intersectAndDelete D F bob
        (((requested w alice A B key ntl).served cloud bob S B u T w.next).helped alice bob
          (A.asking w.next (requestData A.id B.id key).length) (B.gotT (some (w.next + 1))) u Q) := by
  obtain ⟨T, Q, ntl, h1, h2, h3⟩ := run_phase_any (F := F) hr h.toAskedAny h.first (C14_exact B.id B.secret h.secret.1 h.secret.2) x
  refine ⟨T, Q, ntl, fun j i hj hi => ?_, h2, h3⟩
  obtain ⟨t, q, e1, e2, e3, e4⟩ := h1 j i hj hi
  exact ⟨t, q, e1, e2, by rw [e3, sub_self, zero_mul, add_zero], e4⟩

/-! ## The result -/

/-- The matrix of values of polynomials. -/
noncomputable def valuesOf (f : Nat → ZpX p) (u : List (ZMod p)) (L : Nat) : List (List (ZMod p)) :=
  (List.range L).map (fun j => u.map (fun x => (f j).eval x))

theorem diffC_values {w : World p} {a b : Addr} {T Q : List (List (ZMod p))} (ha : w.cell a = some (.matrix T))
    (hb : w.cell b = some (.matrix Q)) {d L : Nat} {u : List (ZMod p)} (hu : u.length = d) {f : Nat → ZpX p}
    (h : ∀ j i, j < L → i < d → ∃ t q, entry T j i = some t ∧ entry Q j i = some q ∧ t - q = (f j).eval (u.getD i 0)) :
    diffC w (some a) (some b) d L = .ok (valuesOf f u L) := by
  unfold diffC
  rw [forC_ok _ (fun j => u.map (fun x => (f j).eval x))]
  · simp [valuesOf]
  · intro j _ hj
    rw [forC_ok _ (fun i => (f j).eval (u.getD i 0))]
    · congr 1
      refine List.ext_getElem (by simp [hu]) fun i hi _ => ?_
      simp only [List.length_map, List.length_range] at hi
      simp [hu ▸ hi]
    · intro i _ hi
      obtain ⟨t, q, h1, h2, h3⟩ := h j i (by omega) (by omega)
      rw [matAt_new ha, matAt_new hb, h1, h2]
      simp only [ok_bind, h3]

theorem valuesOf_get {f : Nat → ZpX p} {u : List (ZMod p)} {L j : Nat} (hj : j < L) :
    (valuesOf f u L)[j]? = some (u.map (fun x => (f j).eval x)) := by
  simp [valuesOf, hj]

/-- The search for the roots of given polynomials. -/
theorem oneShot_values (F : Factoring p) (pad : Nat) {f : Nat → ZpX p} {u : List (ZMod p)} {L : Nat} (hu : u.Nodup)
    (hf : ∀ j, j < L → f j ≠ 0 ∧ (f j).degree < u.length) :
    ∃ o, (ZZpPolynomials.new pad : ZZpPolynomials p).oneShot F u (valuesOf f u L) L = .ok o ∧
      ∃ R : List (List Nat), R.length = L ∧ o.roots = R.flatten ∧ ∀ j l, R[j]? = some l → l.Nodup ∧
        ∀ v, v ∈ l ↔ ∃ r, (f j).IsRoot r ∧ Unpads pad r v := by
  obtain ⟨o, ho⟩ := oneShot_ok F (o := (ZZpPolynomials.new pad : ZZpPolynomials p)) (Or.inl rfl) u (valuesOf f u L) L (fun j hj =>
    ⟨_, valuesOf_get hj, by simp, hu, by rw [interp_map_eval hu _ (hf j hj).2]; exact (hf j hj).1⟩)
  refine ⟨o, ho, ?_⟩
  obtain ⟨R, h1, h2, h3⟩ := C04_exact_and_no_repetition F _ o u _ L ho
  refine ⟨R, h1, h2, fun j l hl => ?_⟩
  obtain ⟨hn, y, g, hy, hg, -, hv⟩ := h3 j l hl
  have hj : j < L := by rw [← h1]; exact (List.getElem?_eq_some_iff.1 hl).1
  rw [valuesOf_get hj] at hy
  obtain rfl := Option.some.inj hy
  have : g = f j := by
    rw [← interpolates_unique hu hg, interp_map_eval hu _ (hf j hj).2]
  subst this
  exact ⟨hn, hv⟩

/-- Bob after the run. -/
def Party.done (B : Party p) (t q : Addr) (cap : List Nat) : Party p := { B with t := some t, q := some q, setcap := cap }

/-- The state after the run. -/
def World.finished (w : World p) (alice bob cloud : Ref) (A B S : Party p) (u : List (ZMod p)) (n : Nat) (ntl cap : List Nat)
    (w' : World p) : Prop :=
  w'.party bob = some (B.done (w.next + 1) (w.next + 2) cap) ∧
  w'.party alice = some ((A.asking w.next n).helped u (w.next + 2)) ∧
  w'.party cloud = some (S.replied u (w.next + 1)) ∧
  (∀ r, r ≠ alice → r ≠ bob → r ≠ cloud → w'.party r = w.party r) ∧
  (∀ a, a < w.next → w'.cell a = w.cell a) ∧ (∀ a, w.next ≤ a → w'.cell a = none) ∧ w'.next = w.next + 3 ∧
  w'.msg = w.msg ∧ w'.table = w.table ∧ w'.ntl = ntl ∧ w'.crand = w.crand

/-- Bob finds the roots of the polynomials `f` whose values he obtains. -/
theorem query_values {D : Digest} {F : Factoring p} {hw : Nat} {w : World p} (hr : w.Reachable D F hw) {alice bob cloud : Ref}
    {A B S : Party p} {k key : Nat} {u : List (ZMod p)} {pA pB : Nat → ZpX p} {bits : Nat}
    (h : AskedAny D w alice bob cloud A B S k key u pA pB bits) (first : B.q = none) {s : Int}
    (hs : ∃ b, readBytes (clientRequestData B.id B.secret) (B.id.length + 1) 3 = .ok b ∧ (zzFromBytes b : Int) = s) (hu : u.Nodup)
    {f : Nat → ZpX p} (hf : ∀ j i, j < S.length → i < S.degree → (f j).eval (u.getD i 0) = (combined D S key pA pB j).eval (u.getD i 0) +
          (fieldVal D S.fieldsize (B.secret : ZMod p) (j * S.degree + i) S.fieldbits -
            fieldVal D S.fieldsize (s : ZMod p) (j * S.degree + i) S.fieldbits) * (omegaB D S key j).eval (u.getD i 0))
    (hc : ∀ j, j < S.length → f j ≠ 0 ∧ (f j).degree < S.degree) (x : Ref) :
    ∃ w' R n ntl, send D F x alice (some (.user k)) w = .ok () w' ∧ w.finished alice bob cloud A B S u n ntl (List.flatten R) w' ∧
      drawKey w.ntl = .ok (key, ntl) ∧ R.length = S.length ∧ ∀ j l, R[j]? = some l → l.Nodup ∧
        ∀ v, v ∈ l ↔ ∃ r, (f j).IsRoot r ∧ Unpads (padSizeOf S.fieldbits bits) r v := by
  obtain ⟨T, Q, ntl, hTQ', hdraw, hsend⟩ := run_phase_any hr h first hs x (F := F)
  have hTQ : ∀ j i, j < S.length → i < S.degree → ∃ t q, entry T j i = some t ∧ entry Q j i = some q ∧
      t - q = (f j).eval (u.getD i 0) := fun j i hj hi => by
    obtain ⟨t, q, h1, h2, h3, -⟩ := hTQ' j i hj hi
    exact ⟨t, q, h1, h2, h3.trans (hf j i hj hi).symm⟩
  have nAB : bob ≠ alice := by
    rintro rfl; have e := h.isA; rw [h.isB] at e; exact h.idAB (by rw [Option.some.inj e])
  have nAS : cloud ≠ alice := by
    rintro rfl; have e := h.isA; rw [h.isS] at e; exact h.idAS (by rw [Option.some.inj e])
  have nBS : bob ≠ cloud := by
    rintro rfl; have e := h.isB; rw [h.isS] at e; exact h.idBS (by rw [Option.some.inj e])
  have fBS : B.fieldbits = S.fieldbits := by unfold Party.fieldbits; rw [h.fieldB]
  obtain ⟨o, ho, R, hR1, hR2, hR3⟩ := oneShot_values (F.at (w.next + 1 + 1 + 1)) (padSizeOf S.fieldbits bits) hu
    (fun j hj => ⟨(hc j hj).1, by rw [h.count]; exact (hc j hj).2⟩)
  let W := ((requested w alice A B key ntl).served cloud bob S B u T w.next).helped alice bob
          (A.asking w.next (requestData A.id B.id key).length) (B.gotT (some (w.next + 1))) u Q
  have hfresh := Reachable.fresh hr
  have hW : W.party bob = some ((B.gotT (some (w.next + 1))).gotQ (some (w.next + 1 + 1))) := upd_same _ _ _
  have ca : W.cell (w.next + 1) = some (.matrix T) := by
    change upd (upd (upd _ (w.next + 1) _) w.next none) (w.next + 1 + 1) _ (w.next + 1) = _
    rw [upd_ne _ _ (Nat.succ_ne_self _).symm, upd_ne _ _ (Nat.succ_ne_self _), upd_same]
  have cb : W.cell (w.next + 1 + 1) = some (.matrix Q) := upd_same _ _ _
  have hd := diffC_values (d := S.degree) (L := S.length) (f := f) ca cb h.count hTQ
  have hrun := intersectAndDelete_run (D := D) (F := F) (w := W) hW h.bits rfl rfl (Nat.succ_ne_self _).symm ca cb
    (diff := valuesOf f u S.length) (o := o)
    (by rw [← hd]; unfold Party.gotT Party.gotQ; simp only; rw [h.degreeB, h.lengthB])
    (by
      rw [← ho, show ((B.gotT (some (w.next + 1))).gotQ (some (w.next + 1 + 1))).length = S.length from h.lengthB,
        show ((B.gotT (some (w.next + 1))).gotQ (some (w.next + 1 + 1))).fieldbits = S.fieldbits from fBS,
        show ((B.gotT (some (w.next + 1))).gotQ (some (w.next + 1 + 1))).unknowns = u from h.pointsB]
      rfl)
  refine ⟨_, R, (requestData A.id B.id key).length, ntl, hsend.trans hrun, ?_, hdraw, hR1, hR3⟩
  refine ⟨?_, ?_, ?_, fun r h1 h2 h3 => ?_, fun a ha => ?_, fun a ha => ?_, rfl, rfl, rfl, rfl, rfl⟩
  · change upd W.party bob _ bob = _
    rw [upd_same, hR2]; rfl
  · change upd (upd (upd _ alice _) bob _) bob _ alice = _
    rw [upd_ne _ _ (Ne.symm nAB), upd_ne _ _ (Ne.symm nAB), upd_same]; rfl
  · change upd (upd (upd (upd (upd _ cloud _) bob _) alice _) bob _) bob _ cloud = _
    rw [upd_ne _ _ (Ne.symm nBS), upd_ne _ _ (Ne.symm nBS), upd_ne _ _ nAS, upd_ne _ _ (Ne.symm nBS), upd_same]; rfl
  · change upd (upd (upd (upd (upd (upd w.party alice _) cloud _) bob _) alice _) bob _) bob _ r = _
    rw [upd_ne _ _ h2, upd_ne _ _ h2, upd_ne _ _ h1, upd_ne _ _ h2, upd_ne _ _ h3, upd_ne _ _ h1]
  · change upd (upd (upd (upd (upd (upd w.cell w.next _) (w.next + 1) _) w.next none) (w.next + 1 + 1) _) (w.next + 1) none)
      (w.next + 1 + 1) none a = _
    have e0 : a ≠ w.next := Nat.ne_of_lt ha
    have e1 : a ≠ w.next + 1 := Nat.ne_of_lt (Nat.lt_succ_of_lt ha)
    have e2 : a ≠ w.next + 1 + 1 := Nat.ne_of_lt (Nat.lt_succ_of_lt (Nat.lt_succ_of_lt ha))
    rw [upd_ne _ _ e2, upd_ne _ _ e1, upd_ne _ _ e2, upd_ne _ _ e0, upd_ne _ _ e1, upd_ne _ _ e0]
  · change upd (upd (upd (upd (upd (upd w.cell w.next _) (w.next + 1) _) w.next none) (w.next + 1 + 1) _) (w.next + 1) none)
      (w.next + 1 + 1) none a = _
    by_cases e2 : a = w.next + 1 + 1
    · rw [e2, upd_same]
    by_cases e1 : a = w.next + 1
    · rw [upd_ne _ _ e2, e1, upd_same]
    by_cases e0 : a = w.next
    · rw [upd_ne _ _ e2, upd_ne _ _ e1, upd_ne _ _ e2, e0, upd_same]
    · rw [upd_ne _ _ e2, upd_ne _ _ e1, upd_ne _ _ e2, upd_ne _ _ e0, upd_ne _ _ e1, upd_ne _ _ e0]
      exact hfresh a ha

theorem query_result {D : Digest} {F : Factoring p} {hw : Nat} {w : World p} (hr : w.Reachable D F hw) {alice bob cloud : Ref}
    {A B S : Party p} {k key : Nat} {u : List (ZMod p)} {pA pB : Nat → ZpX p} {bits : Nat}
    (h : RequestReady D w alice bob cloud A B S k key u pA pB bits) (hu : u.Nodup)
    (hc : ∀ j, j < S.length → combined D S key pA pB j ≠ 0 ∧ (combined D S key pA pB j).degree < S.degree) (x : Ref) :
    ∃ w' R n ntl, send D F x alice (some (.user k)) w = .ok () w' ∧ w.finished alice bob cloud A B S u n ntl (List.flatten R) w' ∧
      drawKey w.ntl = .ok (key, ntl) ∧ R.length = S.length ∧ ∀ j l, R[j]? = some l → l.Nodup ∧
        ∀ v, v ∈ l ↔ ∃ r, (combined D S key pA pB j).IsRoot r ∧ Unpads (padSizeOf S.fieldbits bits) r v := by
  refine query_values hr h.toAskedAny h.first (C14_exact B.id B.secret h.secret.1 h.secret.2) hu (fun j i hj hi => ?_) hc x
  rw [sub_self, zero_mul, add_zero]

end EoPsi
