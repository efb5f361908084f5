import Verif.Spec.Dimensions
import Verif.Lemmas.CrowdEnd
import Verif.Props.Exchange

/-! # Two clients and a server who know each other -/

set_option linter.unusedSectionVars false

namespace EoPsi

variable {p : Nat} [Fact p.Prime]

theorem Arranged.introduced {w : World p} {alice bob cloud : Ref} {A B S : Party p} (h : Arranged w alice bob cloud A B S) :
    Introduced w alice bob cloud A B S :=
  ⟨h.isA, h.isB, h.isS, h.classA, h.classB, h.classS, h.idAB, h.idAS, h.idBS, h.nulA, h.nulB, h.knowAB, h.knowBA, h.knowBS, h.knowSA,
    h.knowSB, h.chosen⟩

theorem Introduced.refs {w : World p} {alice bob cloud : Ref} {A B S : Party p} (h : Introduced w alice bob cloud A B S) :
    bob ≠ alice ∧ cloud ≠ alice ∧ bob ≠ cloud := by
  refine ⟨?_, ?_, ?_⟩
  · rintro rfl; have e := h.isA; rw [h.isB] at e; exact h.idAB (by rw [Option.some.inj e])
  · rintro rfl; have e := h.isA; rw [h.isS] at e; exact h.idAS (by rw [Option.some.inj e])
  · rintro rfl; have e := h.isB; rw [h.isS] at e; exact h.idBS (by rw [Option.some.inj e])

theorem Introduced.transport {w w' : World p} {alice bob cloud : Ref} {A B S A' B' S' : Party p} (h : Introduced w alice bob cloud A B S)
    (isA : w'.party alice = some A') (isB : w'.party bob = some B') (isS : w'.party cloud = some S') (eA : Same A A') (eB : Same B B')
    (eS : Same S S') (pA : A'.parties = A.parties) (pB : B'.parties = B.parties)
    (kS : ∀ id s, id = A.id ∨ id = B.id → S.getPartyById id = some s → S'.getPartyById id = some s)
    (chosen : SmallestServer w' A' S.id cloud) : Introduced w' alice bob cloud A' B' S' where
  isA := isA
  isB := isB
  isS := isS
  classA := by rw [eA.cls, eA.type]; exact h.classA
  classB := by rw [eB.cls, eB.type]; exact h.classB
  classS := by rw [eS.cls, eS.type]; exact h.classS
  idAB := by rw [eA.id, eB.id]; exact h.idAB
  idAS := by rw [eA.id, eS.id]; exact h.idAS
  idBS := by rw [eB.id, eS.id]; exact h.idBS
  nulA := by rw [eA.id]; exact h.nulA
  nulB := by rw [eB.id]; exact h.nulB
  knowAB := by have := h.knowAB; unfold Party.getPartyById at this ⊢; rw [pA, eB.id]; exact this
  knowBA := by have := h.knowBA; unfold Party.getPartyById at this ⊢; rw [pB, eA.id]; exact this
  knowBS := by have := h.knowBS; unfold Party.getPartyById at this ⊢; rw [pB, eS.id]; exact this
  knowSA := by rw [eA.id]; exact kS _ _ (Or.inl rfl) h.knowSA
  knowSB := by rw [eB.id]; exact kS _ _ (Or.inr rfl) h.knowSB
  chosen := by rw [eS.id]; exact chosen

/-- A query that the server cannot answer. -/
theorem Introduced.query_fault {D : Digest} {F : Factoring p} {hw : Nat} {w : World p} (hr : w.Reachable D F hw) {alice bob cloud : Ref} {A B S : Party p}
    (h : Introduced w alice bob cloud A B S) {m : MRef} {μ : Msg} {buf : List Byte} {key : Nat} {ntl : List Nat}
    (hq : Requests w alice m A μ bob B buf key ntl) {three : List Byte} (h3 : readBytes buf (B.id.length + 1) 3 = .ok three) {f : Fault}
    (hf : intersectionOutput D S A.id B.id key (requested w alice A B key ntl) = .fault f) (x : Ref) :
    send D F x alice (some m) w = .fault f := by
  obtain ⟨nAB, nAS, nBS⟩ := h.refs
  have hkey : key < 2 ^ keyBits := (drawKey_ok hq.draws).2.1
  rw [hq.send_eq, M.run_bind, hq.findCloud_some hr h.chosen]
  simp only
  rw [M.run_bind, h3, M.run_liftC_ok]
  simp only
  rw [M.run_bind]
  let w1 := requested w alice A B key ntl
  have hA1 : w1.party alice = some (A.asking w.next (requestData A.id B.id key).length) := upd_same _ _ _
  have hS1 : w1.party cloud = some S := by
    change upd w.party alice _ cloud = _
    rw [upd_ne _ _ nAS]; exact h.isS
  have hrec : receiveN D F 2 cloud (.toCloud alice) w1 = .fault f := by
    have hin : Incoming w1 cloud (.toCloud alice) S (A.asking w.next (requestData A.id B.id key).length).msgToCloud alice
        (A.asking w.next (requestData A.id B.id key).length) :=
      ⟨hS1, by simp only [World.msgAt, hA1]; rfl, h.idAS, h.knowSA, hA1⟩
    rw [receiveN_eq hin.receiver, h.classS.1]
    simp only
    rw [serverReceive_eq hin, if_neg (by
      rw [show (A.asking w.next (requestData A.id B.id key).length).id = A.id from rfl]
      unfold Party.hasAuthenticated; rw [h.knowSA, show (A.asking _ _).type = .client from h.classA.2]; exact Bool.noConfusion)]
    rw [show (A.asking w.next (requestData A.id B.id key).length).msgToCloud.type = .cloudRequest from rfl]
    simp only
    rw [handleCloudRequest_eq hin.receiver hin.object h.classA.2 (buf := requestData A.id B.id key)
      (by
        change w1.bytesAt (some w.next) = _
        have : w1.cell w.next = some (.bytes (requestData A.id B.id key)) := upd_same _ _ _
        simp [World.bytesAt, this])
      (requestData_reads h.nulA h.nulB hkey), M.run_bind]
    rw [show (A.asking w.next (requestData A.id B.id key).length).id = A.id from rfl, hf]
  have : M.catchP (receiveN D F 2 cloud (.toCloud alice)) (fun _ => M.fail (.exit 2)) w1 = .fault f := by
    unfold M.catchP; rw [hrec]
  rw [this]

/-- From the outsourcing to the request. -/
theorem outsource_ready {D : Digest} {F : Factoring p} {hw : Nat} {w2 : World p} (hr : w2.Reachable D F hw) {alice bob cloud : Ref}
    {A B S : Party p} {kA kB k : Nat} (h : Introduced w2 alice bob cloud A B S)
    (msgs : w2.msg kA ≠ none ∧ w2.msg kB ≠ none ∧ w2.msg k ≠ none)
    (objects : kA ≠ kB ∧ k ≠ kA ∧ k ≠ kB) {key : Nat} {ntl : List Nat} (hk : drawKey w2.ntl = .ok (key, ntl)) (lenA lenB : Nat) :
    ∃ (w5 : World p) (S' : Party p) (μ μA μB : Msg), w5.Reachable D F hw ∧ Introduced w5 alice bob cloud A B S' ∧ (Arranged w2 alice bob cloud A B S → Arranged w5 alice bob cloud A B S') ∧
      Requests w5 alice (.user k) A μ bob B (clientRequestData B.id B.secret) key ntl ∧ (Same S S' ∧ S'.unknowns = S.unknowns) ∧
      StoresMessage w5 S' A.id μA ∧ StoresMessage w5 S' B.id μB ∧ μA.data = A.blindedData ∧ μB.data = B.blindedData ∧
      (∀ a, w2.cell a ≠ none → w5.cell a = w2.cell a ∧ (requested w5 alice A B key ntl).cell a = w2.cell a) ∧
      w2.runCalls D F hw (outsource alice cloud kA A.id lenA ++ outsource bob cloud kB B.id lenB ++ ask bob alice k B.id B.secret) =
        w5.runCalls D F hw [.send bob alice (some k)] := by
  obtain ⟨nAB, nAS, nBS⟩ := h.refs
  obtain ⟨μA, hμA⟩ := Option.ne_none_iff_exists'.1 msgs.1
  obtain ⟨μB, hμB⟩ := Option.ne_none_iff_exists'.1 msgs.2.1
  obtain ⟨μK, hμK⟩ := Option.ne_none_iff_exists'.1 msgs.2.2
  have hfresh := Reachable.fresh hr
  have o3 := outsource_run (D := D) (F := F) (hw := hw) (w := w2) (len := lenA) h.isA h.isS hμA h.classS.1 h.classA.2 h.idAS h.knowSA
  let w3 := w2.outsourced cloud S kA (outMsg μA A.id A.blindedData lenA) A.id
  let S3 := S.storing A.id kA
  have b3 : w3.party bob = some B := by
    change upd w2.party cloud _ bob = _; rw [upd_ne _ _ nBS]; exact h.isB
  have s3 : w3.party cloud = some S3 := upd_same _ _ _
  have m3 : w3.msg kB = some μB := by
    change upd w2.msg kA _ kB = _; rw [upd_ne _ _ (Ne.symm objects.1)]; exact hμB
  have o4 := outsource_run (D := D) (F := F) (hw := hw) (w := w3) (len := lenB) b3 s3 m3 h.classS.1 h.classB.2 h.idBS h.knowSB
  let w4 := w3.outsourced cloud S3 kB (outMsg μB B.id B.blindedData lenB) B.id
  let S' := S3.storing B.id kB
  have m4 : w4.msg k = some μK := by
    change upd (upd w2.msg kA _) kB _ k = _
    rw [upd_ne _ _ objects.2.2, upd_ne _ _ objects.2.1]; exact hμK
  let w5 := w4.asked k μK B.id B.secret
  have hr5 : w5.Reachable D F hw := by
    refine Reachable.runCalls hr (cs := outsource alice cloud kA A.id lenA ++ (outsource bob cloud kB B.id lenB ++ [.msgType k .clientRequest, .msgPartyId k B.id,
      .msgData k (.bytes (clientRequestData B.id B.secret)) (clientRequestData B.id B.secret).length])) ?_
    refine (runCalls_append _ _ o3).trans ((runCalls_append _ _ o4).trans ?_)
    rw [runCalls_step (step_msgType m4), runCalls_step (step_msgId (setMsg_msg _ _ _)), setMsg_setMsg,
      runCalls_step (step_msgBytes (setMsg_msg _ _ _))]
    change Except.ok _ = Except.ok (w4.asked k μK B.id B.secret)
    unfold World.setMsg World.asked askMsg
    simp only [upd_upd]
  have a5 : w5.party alice = some A := by
    change upd (upd w2.party cloud _) cloud _ alice = _
    rw [upd_ne _ _ (Ne.symm nAS), upd_ne _ _ (Ne.symm nAS)]; exact h.isA
  have b5 : w5.party bob = some B := by
    change upd w3.party cloud _ bob = _; rw [upd_ne _ _ nBS]; exact b3
  have s5 : w5.party cloud = some S' := upd_same _ _ _
  have types : ∀ r, (w5.party r).map (·.type) = (w2.party r).map (·.type) := by
    intro r
    by_cases h3 : r = cloud
    · subst h3; rw [s5, h.isS]; rfl
    · change (upd (upd w2.party cloud _) cloud _ r).map _ = _
      rw [upd_ne _ _ h3, upd_ne _ _ h3]
  have eS : Same S S' := ⟨rfl, rfl, rfl, rfl, rfl, rfl, rfl, rfl⟩
  have h5 : Introduced w5 alice bob cloud A B S' := h.transport a5 b5 s5 (Same.refl _) (Same.refl _) eS rfl rfl
    (fun _ _ _ h => h) (h.chosen.transport rfl types)
  have c5K : w5.cell w2.next = some (.bytes (clientRequestData B.id B.secret)) := upd_same _ _ _
  have k5A : w5.msg kA = some (outMsg μA A.id A.blindedData lenA) := by
    change upd (upd (upd w2.msg kA _) kB _) k _ kA = _
    rw [upd_ne _ _ (Ne.symm objects.2.1), upd_ne _ _ objects.1, upd_same]
  have k5B : w5.msg kB = some (outMsg μB B.id B.blindedData lenB) := by
    change upd (upd (upd w2.msg kA _) kB _) k _ kB = _
    rw [upd_ne _ _ (Ne.symm objects.2.2), upd_same]
  have k5K : w5.msg k = some (askMsg μK B.id w2.next (clientRequestData B.id B.secret).length) := upd_same _ _ _
  have stA : mapFind A.id S'.stored = some (.user kA) := by
    change mapFind A.id (mapInsert B.id _ (mapInsert A.id _ _)) = _
    rw [mapFind_insert_ne _ _ h.idAB, mapFind_insert_same]
  have stB : mapFind B.id S'.stored = some (.user kB) := mapFind_insert_same _ _ _
  have hq : Requests w5 alice (.user k) A (askMsg μK B.id w2.next (clientRequestData B.id B.secret).length) bob B
      (clientRequestData B.id B.secret) key ntl := {
    receiver := a5, msg := k5K, notSelf := Ne.symm h.idAB, sender := h.knowAB, object := b5
    known := by unfold Party.hasAuthenticated; rw [show A.getPartyById B.id = some bob from h.knowAB]; rfl
    helper := h.classA.1, requester := h.classB.2, request := rfl
    buffer := by
      change w5.bytesAt (some w2.next) = _
      unfold World.bytesAt
      simp only [c5K]
    claims := clientRequest_claims h.nulB _
    draws := hk }
  refine ⟨w5, S', _, _, _, hr5, h5, fun h => h.transport a5 b5 s5 (Same.refl _) (Same.refl _) eS rfl rfl
    (fun _ _ _ h => h) (h.chosen.transport rfl types), hq, ⟨eS, rfl⟩, ⟨kA, stA, k5A⟩, ⟨kB, stB, k5B⟩, rfl, rfl, fun a ha => ?_, ?_⟩
  · have ha' : a < w2.next := by
      by_contra hlt
      exact ha (hfresh a (Nat.le_of_not_lt hlt))
    have e5 : w5.cell a = w2.cell a := upd_ne _ _ (Nat.ne_of_lt ha')
    refine ⟨e5, ?_⟩
    change upd w5.cell (w2.next + 1) _ a = _
    rw [upd_ne _ _ (Nat.ne_of_lt (Nat.lt_succ_of_lt ha')), e5]
  · rw [List.append_assoc]
    exact (runCalls_append _ _ o3).trans ((runCalls_append _ _ o4).trans (ask_run m4))

end EoPsi
