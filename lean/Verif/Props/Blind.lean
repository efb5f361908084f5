import Verif.Spec.Blind
import Verif.Lemmas.Tables
import Verif.Lemmas.Mask
import Verif.Lemmas.Demo
import Mathlib.Probability.Distributions.Uniform

/-! # Outsourced data: C12, C33, C40, C43, C44, C45, C63, C64 -/

set_option linter.unusedSectionVars false

namespace EoPsi

open Polynomial

variable {p : Nat} [Fact p.Prime]

/-! ## The call `setRawData` -/

theorem run_setRawData (D : Digest) (F : Factoring p) (hw : Nat) (w : World p) (r : Ref) (raw : Option (List Int)) (bits n : Nat) :
    (Call.setRawData r raw bits n : Call p).run D F hw w = (M.party r >>= fun P =>
      if P.cls = .client then setRawData D hw r raw bits n else M.fail (.ub .wrongType)) w := rfl

theorem step_setRawData_run {D : Digest} {F : Factoring p} {hw : Nat} {w : World p} {r : Ref} {raw : Option (List Int)}
    {bits n : Nat} {P : Party p} (hP : w.party r = some P) (hc : P.cls = .client) :
    w.step D F hw (.setRawData r raw bits n) = (match setRawData D hw r raw bits n w with
      | .ok _ w' => Except.ok w' | .thrown _ w' => Except.ok w' | .fault f => Except.error f : C (World p)) := by
  unfold World.step
  rw [run_setRawData, M.run_bind, M.run_party hP]
  simp only [hc, if_true]
  cases setRawData D hw r raw bits n w <;> rfl

/-- The client as `blind` sees it. -/
def Party.withData (P : Party p) (l : List Int) (bits : Nat) : Party p := { P with rawData := l, rawDataBits := some bits }

theorem step_setRawData_error {D : Digest} {F : Factoring p} {hw : Nat} {w : World p} {r : Ref} {z : Int} {zs : List Int}
    {bits n : Nat} {P : Party p} (hP : w.party r = some P) (hc : P.cls = .client) {h : HashBuckets (ZMod p)}
    (hT : w.table P.table = some h) {e : Fault}
    (hb : blindC D 1 (P.withData (z :: zs) bits) bits h (P.autoIndex, P.autoSeed, w.crand) = .error e) :
    w.step D F hw (.setRawData r (some (z :: zs)) bits n) = .error e := by
  rw [step_setRawData_run hP hc]
  have : setRawData D hw r (some (z :: zs)) bits n w = .fault e := by
    unfold setRawData
    simp only [M.run_bind, M.run_party hP]
    have ht : M.table P.table w = .ok h w := by simp [M.table, hT]
    rw [ht]
    simp only [M.run_get]
    unfold Party.withData at hb
    rw [show threadsUsed hw n = 1 from rfl, hb]
    rfl
  rw [this]

/-- The state after `setRawData`. -/
def World.afterRaw (w : World p) (r : Ref) (P : Party p) (l : List Int) (bits : Nat) (h' : HashBuckets (ZMod p))
    (g : GenState p) (u : List (ZMod p)) (m : List (List (ZMod p))) : World p :=
  { w with
    cell := upd w.cell w.next (some (.matrix m))
    next := w.next + 1
    table := upd w.table P.table (some h')
    crand := g.2.2
    party := upd w.party r (some { P with
      rawData := l, rawDataBits := some bits, unknowns := u, blindedData := some w.next, autoIndex := g.1
      autoSeed := g.2.1 }) }

theorem step_setRawData_ok {D : Digest} {F : Factoring p} {hw : Nat} {w : World p} {r : Ref} {z : Int} {zs : List Int}
    {bits n : Nat} {P : Party p} (hP : w.party r = some P) (hc : P.cls = .client) {h : HashBuckets (ZMod p)}
    (hT : w.table P.table = some h) {h' : HashBuckets (ZMod p)} {g : GenState p} {u : List (ZMod p)} {m : List (List (ZMod p))}
    (hb : blindC D 1 (P.withData (z :: zs) bits) bits h (P.autoIndex, P.autoSeed, w.crand) = .ok (h', g, u, m)) :
    w.step D F hw (.setRawData r (some (z :: zs)) bits n) = .ok (w.afterRaw r P (z :: zs) bits h' g u m) := by
  obtain ⟨k, s, rnd⟩ := g
  rw [step_setRawData_run hP hc, setRawData_ok hP hT hb]
  rfl

theorem step_setRawData_inv {D : Digest} {F : Factoring p} {hw : Nat} {w w' : World p} {r : Ref} {z : Int} {zs : List Int}
    {bits n : Nat} {P : Party p} (hP : w.party r = some P)
    (hs : w.step D F hw (.setRawData r (some (z :: zs)) bits n) = .ok w') :
    P.cls = .client ∧ ∃ h h' g u m, w.table P.table = some h ∧
      blindC D 1 (P.withData (z :: zs) bits) bits h (P.autoIndex, P.autoSeed, w.crand) = .ok (h', g, u, m) ∧
      w' = w.afterRaw r P (z :: zs) bits h' g u m := by
  have hc : P.cls = .client := by
    by_contra hc
    unfold World.step at hs
    rw [run_setRawData, M.run_bind, M.run_party hP] at hs
    simp only [hc, if_false] at hs
    exact absurd hs (by simp [M.fail])
  refine ⟨hc, ?_⟩
  rw [step_setRawData_run hP hc] at hs
  rcases setRawData_cases D hw r z zs bits n w with ⟨f, hf⟩ | ⟨P', h, h', k, s, rnd, u, m, hP', hT, hb⟩
  · rw [hf] at hs; exact absurd hs (by simp)
  · rw [hP] at hP'; obtain rfl := Option.some.inj hP'
    rw [setRawData_ok hP hT hb] at hs
    exact ⟨h, h', (k, s, rnd), u, m, hT, hb, (Except.ok.inj hs).symm⟩

theorem blindedOf_afterRaw (w : World p) (r : Ref) (P : Party p) (l : List Int) (bits : Nat) (h' : HashBuckets (ZMod p))
    (g : GenState p) (u : List (ZMod p)) (m : List (List (ZMod p))) : (w.afterRaw r P l bits h' g u m).blindedOf r = some m := by
  simp [World.blindedOf, World.afterRaw]

theorem bucket_afterRaw (w : World p) (r : Ref) (P : Party p) (l : List Int) (bits : Nat) (h' : HashBuckets (ZMod p))
    (g : GenState p) (u : List (ZMod p)) (m : List (List (ZMod p))) (j : Nat) :
    (w.afterRaw r P l bits h' g u m).bucket P.table j = h'.itemsAt j := by
  simp only [World.bucket, World.afterRaw, upd_same, HashBuckets.itemsAt]
  cases h'.buckets[j]? <;> rfl

/-! ## C12 -/

/-- Table `k` exists, is in good order and full. -/
def FullTable (w : World p) (k : Nat) (a : HashAlg (ZMod p)) (d : ZMod p → List Byte) : Prop :=
  ∃ t, w.table k = some t ∧ t.Inv ∧ t.alg.map Prod.fst = some a ∧ a.Computes d ∧ 0 < t.k ∧
    ∀ b ∈ t.buckets, b.items.length = t.maxLoad

theorem FullTable.refuses {D : Digest} {F : Factoring p} {hw : Nat} {w : World p} {k : Nat} {a : HashAlg (ZMod p)}
    {d : ZMod p → List Byte} (h : FullTable w k a d) {r : Ref} {P : Party p} (hP : w.party r = some P) (hc : P.cls = .client)
    (hk : P.table = k) (z : Int) (zs : List Int) (bits n : Nat) :
    w.step D F hw (.setRawData r (some (z :: zs)) bits n) = .error (.exit 1) := by
  subst hk
  obtain ⟨t, ht, hi, ha, hd, hk, hf⟩ := h
  refine step_setRawData_error hP hc ht ?_
  rw [blindC_eq]
  have : t.addList (paddedData (P.withData (z :: zs) bits) bits) = .error (.exit 1) :=
    HashBuckets.addList_full hi ha hd hk hf _ _
  rw [this]; rfl

theorem FullTable.kept {D : Digest} {F : Factoring p} {hw : Nat} {w w' : World p} {k : Nat} {a : HashAlg (ZMod p)}
    {d : ZMod p → List Byte} (h : FullTable w k a d) {c : Call p} (hs : w.step D F hw c = .ok w') : FullTable w' k a d := by
  obtain ⟨t, ht, hi, ha, hd, hk, hf⟩ := h
  rcases step_of_run hs (call_table D F hw c w k) with e | ⟨e, -⟩ | ⟨r, z, zs, bits, n, P, h, h', g, u, m, rfl, hP, hk', hT, hT', hb⟩
  · exact ⟨t, e.trans ht, hi, ha, hd, hk, hf⟩
  · rw [ht] at e; exact absurd e (by simp)
  · obtain ⟨hc, -⟩ := step_setRawData_inv hP hs
    rw [FullTable.refuses ⟨t, ht, hi, ha, hd, hk, hf⟩ hP hc hk'] at hs
    exact absurd hs (by simp)

theorem fullTable_of_setRawData {D : Digest} {F : Factoring p} {hw : Nat} {w w1 : World p} (hr : w.Reachable D F hw)
    {r : Ref} {P : Party p} (hP : w.party r = some P) {z : Int} {zs : List Int} {bits n : Nat}
    (hs : w.step D F hw (.setRawData r (some (z :: zs)) bits n) = .ok w1) {t : HashBuckets (ZMod p)}
    (ht : w.table P.table = some t) {a : HashAlg (ZMod p)} {d : ZMod p → List Byte} (ha : t.alg.map Prod.fst = some a)
    (hd : a.Computes d) : FullTable w1 P.table a d ∧ ∃ t1, w1.table P.table = some t1 ∧ t.SameShape t1 := by
  obtain ⟨hc, h, h', g, u, m, hT, hb, rfl⟩ := step_setRawData_inv hP hs
  rw [ht] at hT; obtain rfl := Option.some.inj hT
  obtain ⟨h1, e1, e2, -⟩ := blindC_inv (le_refl _) hb
  have hi := Reachable.tables hr _ _ ht
  obtain ⟨i1, s1⟩ := HashBuckets.addList_inv _ hi e1
  obtain ⟨i2, s2, -, hfull⟩ := HashBuckets.conceal_inv i1 e2
  have ss := s1.trans s2
  have ha1 : h1.alg.map Prod.fst = some a := s1.2.2.trans ha
  obtain ⟨⟨a', s⟩, halg, rfl⟩ := Option.map_eq_some_iff.1 ha1
  refine ⟨⟨h', by simp [World.afterRaw], i2, ss.2.2.trans ha, hd, ?_, hfull _ s halg d hd⟩, h', by simp [World.afterRaw], ss⟩
  rw [ss.1]
  obtain ⟨h0, e0, -⟩ := bind_eq_ok (show (t.add _ >>= fun h' => h'.addList _) = .ok h1 from e1)
  exact HashBuckets.add_k_pos ha hi e0

/-- **C12.** After a successful `setRawData` of a client whose table has a (total) hash algorithm, every bucket of that
table is full; and after *any* further history of calls, every client object that uses the same table ends the process with
exit code 1 when it calls `setRawData` with at least one element. -/
theorem C12_setRawData_once_per_table {D : Digest} {F : Factoring p} {hw : Nat} {w w1 : World p} (hr : w.Reachable D F hw)
    {r : Ref} {P : Party p} (hP : w.party r = some P) {z : Int} {zs : List Int} {bits n : Nat}
    (first : w.step D F hw (.setRawData r (some (z :: zs)) bits n) = .ok w1) {t : HashBuckets (ZMod p)}
    (ht : w.table P.table = some t) {a : HashAlg (ZMod p)} {d : ZMod p → List Byte} (ha : t.alg.map Prod.fst = some a)
    (hd : a.Computes d) :
    (∃ t1, w1.table P.table = some t1 ∧ t1.buckets.length = t.k ∧ ∀ b ∈ t1.buckets, b.items.length = t.maxLoad) ∧
    ∀ (cs : List (Call p)) (w2 : World p), w1.runCalls D F hw cs = .ok w2 →
      ∀ (r2 : Ref) (P2 : Party p), w2.party r2 = some P2 → P2.cls = .client → P2.table = P.table →
      ∀ (z2 : Int) (zs2 : List Int) (bits2 n2 : Nat),
        w2.step D F hw (.setRawData r2 (some (z2 :: zs2)) bits2 n2) = .error (.exit 1) := by
  obtain ⟨hfull, t1, ht1, ss⟩ := fullTable_of_setRawData hr hP first ht ha hd
  constructor
  · obtain ⟨t1', ht1', hi, -, -, -, hf⟩ := hfull
    rw [ht1] at ht1'; obtain rfl := Option.some.inj ht1'
    exact ⟨t1, ht1, by rw [hi.1, ss.1], fun b hb => by rw [hf b hb, ss.2.1]⟩
  · intro cs w2 hcs r2 P2 hP2 hc2 hk2 z2 zs2 bits2 n2
    have : FullTable w2 P.table a d :=
      runCalls_induct (R := fun w w' => FullTable w P.table a d → FullTable w' P.table a d) (fun _ h => h)
        (fun _ _ _ h1 h2 h => h2 (h1 h)) (fun _ _ _ hs h => h.kept hs) cs _ _ hcs hfull
    exact this.refuses hP2 hc2 hk2 _ _ _ _

/-! ## C33 -/

theorem blindC_long {D : Digest} {P : Party p} {dataBits : Nat} {h : HashBuckets (ZMod p)} {g : GenState p}
    {a : HashAlg (ZMod p)} {d : ZMod p → List Byte} (hi : h.Inv) (ha : h.alg.map Prod.fst = some a) (hd : a.Computes d)
    (hk : 0 < h.k) (hm : P.modulo ≠ 0) (hg : GenState.Live g) (hl : h.k < P.length) :
    blindC D 1 P dataBits h g = .error (.exit 1) := by
  rw [blindC_eq]
  rcases HashBuckets.addList_cases hd (paddedData P dataBits) hi ha hk with ⟨h1, e1⟩ | e1
  · obtain ⟨i1, s1⟩ := HashBuckets.addList_inv _ hi e1
    obtain ⟨h2, g2, e2, -⟩ := conceal_live (D := D) hm h1 hg
    obtain ⟨i2, s2, -⟩ := HashBuckets.conceal_inv i1 e2
    rw [e1, ok_bind, e2, ok_bind]
    have hk2 : h2.k = h.k := s2.1.trans s1.1
    have key : ∀ n s, s ≤ h.k → h.k < s + n → forC (polyAt h2) n s = .error (.exit 1) := by
      intro n
      induction n with
      | zero => intro s h1 h2; omega
      | succ n ih =>
        intro s hs1 hs2
        rw [forC]
        by_cases hs : s = h.k
        · subst hs
          have : h2.getBucket h.k = .error (.exit 1) := by
            unfold HashBuckets.getBucket; rw [if_neg (by omega)]
          rw [polyAt, this]; rfl
        · have hlt : s < h2.buckets.length := by rw [i2.1, hk2]; omega
          have : h2.getBucket s = .ok h2.buckets[s] := by
            unfold HashBuckets.getBucket; rw [if_pos (by omega), List.getElem?_eq_getElem hlt]
          rw [polyAt, this, ok_bind, ok_bind, ih (s + 1) (by omega) (by omega)]; rfl
    simp only
    rw [key _ _ (Nat.zero_le _) (by omega)]; rfl
  · rw [e1]; rfl

/-- **C33 (longer client).** If the client's length exceeds the number of buckets of its table, `setRawData` with at least
one element ends the process with exit code 1 (whether or not a bucket overflows first).  The pad generator must be able to
work: modulus nonzero, and a seed or a random draw available. -/
theorem C33_longer_client_exits {D : Digest} {F : Factoring p} {hw : Nat} {w : World p} (hr : w.Reachable D F hw)
    {r : Ref} {P : Party p} (hP : w.party r = some P) (hc : P.cls = .client) {t : HashBuckets (ZMod p)}
    (ht : w.table P.table = some t) {a : HashAlg (ZMod p)} {d : ZMod p → List Byte} (ha : t.alg.map Prod.fst = some a)
    (hd : a.Computes d) (hk : 0 < t.k) (hm : P.modulo ≠ 0) (hg : P.autoSeed ≠ none ∨ w.crand ≠ [])
    (hl : t.k < P.length) (z : Int) (zs : List Int) (bits n : Nat) :
    w.step D F hw (.setRawData r (some (z :: zs)) bits n) = .error (.exit 1) :=
  step_setRawData_error hP hc ht (blindC_long (P := P.withData (z :: zs) bits) (Reachable.tables hr _ _ ht) ha hd hk hm hg hl)

theorem itemsAt_pushAt {T : Type} {h h' : HashBuckets T} {i : Nat} {x : T} (e : h.pushAt i x = .ok h') (j : Nat) :
    h'.itemsAt j = h.itemsAt j ++ (if j = i then [x] else []) := by
  unfold HashBuckets.pushAt at e
  cases hb : h.buckets[i]? with
  | none => rw [hb] at e; simp at e
  | some b =>
    rw [hb] at e; simp only [Except.ok.injEq] at e; subst e
    have hl := (List.getElem?_eq_some_iff.1 hb).1
    simp only [HashBuckets.itemsAt]
    by_cases hj : j = i
    · subst hj; rw [List.getElem?_set_self hl, hb]; simp [Bucket.push]
    · rw [List.getElem?_set_ne (Ne.symm hj)]; simp [hj]

theorem itemsAt_addList {T : Type} {a : HashAlg T} {d : T → List Byte} (hd : a.Computes d) (xs : List T) :
    ∀ {h h' : HashBuckets T}, h.Inv → h.alg.map Prod.fst = some a → h.addList xs = .ok h' →
      ∀ j, h'.itemsAt j = h.itemsAt j ++ inBucket d h.k xs j := by
  induction xs with
  | nil => intro h h' _ _ e j; cases e; simp [inBucket]
  | cons x xs ih =>
    intro h h' hi ha e j
    obtain ⟨h1, e1, e⟩ := bind_eq_ok e
    obtain ⟨i1, s1⟩ := HashBuckets.add_inv hi e1
    rw [ih i1 (s1.2.2.trans ha) e j, s1.1]
    have hk := HashBuckets.add_k_pos ha hi e1
    obtain ⟨⟨a', s⟩, halg, rfl⟩ := Option.map_eq_some_iff.1 ha
    obtain ⟨hw, hl, -⟩ := hi.2 _ s halg d hd
    obtain ⟨s', e2, -⟩ := HashBuckets.indexOf_eq hd hw hl hk x
    have hb : bucketOf d h.k x < h.buckets.length := by rw [hi.1]; exact Nat.mod_lt _ hk
    rw [HashBuckets.add, halg] at e1
    simp only [e2, ok_bind, List.getElem?_eq_getElem hb] at e1
    split at e1
    · exact absurd e1 (by simp)
    · rw [itemsAt_pushAt e1 j]
      simp only [HashBuckets.itemsAt, inBucket, List.filter_cons, List.append_assoc]
      congr 1
      by_cases hj : bucketOf d h.k x = j
      · rw [if_pos hj.symm]; simp [hj]
      · rw [if_neg (Ne.symm hj)]; simp [hj]

theorem concealLoop_prefix {T G : Type} (gen : G → C (T × G)) (ml L : Nat) : ∀ (bs cs : List (Bucket T)) (g : G)
    (bs' cs' : List (Bucket T)) (g1 g2 : G), HashBuckets.concealLoop gen ml g bs = .ok (bs', g1) →
    HashBuckets.concealLoop gen ml g cs = .ok (cs', g2) →
    (bs.take L).map (·.items) = (cs.take L).map (·.items) → (bs'.take L).map (·.items) = (cs'.take L).map (·.items) := by
  induction L with
  | zero => intro bs cs g bs' cs' g1 g2 _ _ _; simp
  | succ L ih =>
    intro bs cs g bs' cs' g1 g2 h1 h2 h
    cases bs with
    | nil =>
      cases cs with
      | nil => rw [h1] at h2; cases h2; rfl
      | cons c cs => simp at h
    | cons b bs =>
      cases cs with
      | nil => simp at h
      | cons c cs =>
        simp only [List.take_succ_cons, List.map_cons, List.cons.injEq] at h
        obtain ⟨hbc, h⟩ := h
        rw [HashBuckets.concealLoop] at h1 h2
        obtain ⟨⟨xs, ga⟩, e1, h1⟩ := bind_eq_ok h1
        obtain ⟨⟨ys, gb⟩, e2, h2⟩ := bind_eq_ok h2
        have hb' : (if b.items.isEmpty then b.mark else b).items = b.items := by split <;> rfl
        have hc' : (if c.items.isEmpty then c.mark else c).items = b.items := by rw [hbc]; split <;> rfl
        rw [hb'] at e1; rw [hc', e1] at e2
        simp only [Except.ok.injEq, Prod.mk.injEq] at e2
        obtain ⟨rfl, rfl⟩ := e2
        obtain ⟨⟨bs1, gc⟩, e3, h1⟩ := bind_eq_ok h1
        obtain ⟨⟨cs1, gd⟩, e4, h2⟩ := bind_eq_ok h2
        cases h1; cases h2
        simp only [List.take_succ_cons, List.map_cons, List.cons.injEq, true_and]
        exact ih _ _ _ _ _ _ _ e3 e4 h

theorem itemsAt_take {T : Type} {h : HashBuckets T} {L : Nat} (hk : L ≤ h.buckets.length) :
    (h.buckets.take L).map (·.items) = (List.range L).map h.itemsAt := by
  refine List.ext_getElem (by simp [hk]) fun i hi _ => ?_
  simp only [List.length_map, List.length_take] at hi
  have : i < h.buckets.length := by omega
  simp [HashBuckets.itemsAt, this]

theorem conceal_prefix {T G : Type} {gen : G → C (T × G)} {h1 h2 h1' h2' : HashBuckets T} {g g1 g2 : G} {L : Nat}
    (i1 : h1.Inv) (i2 : h2.Inv) (ek : h1.k = h2.k) (em : h1.maxLoad = h2.maxLoad) (hL : L ≤ h1.k)
    (e1 : h1.conceal gen g = .ok (h1', g1)) (e2 : h2.conceal gen g = .ok (h2', g2))
    (h : ∀ j, j < L → h1.itemsAt j = h2.itemsAt j) : ∀ j, j < L → h1'.itemsAt j = h2'.itemsAt j := by
  obtain ⟨i1', s1, -⟩ := HashBuckets.conceal_inv i1 e1
  obtain ⟨i2', s2, -⟩ := HashBuckets.conceal_inv i2 e2
  obtain ⟨⟨bs, ga⟩, f1, e1⟩ := bind_eq_ok e1
  obtain ⟨⟨cs, gb⟩, f2, e2⟩ := bind_eq_ok e2
  cases e1; cases e2
  rw [← em] at f2
  have hp := concealLoop_prefix gen h1.maxLoad L _ _ _ _ _ _ _ f1 f2 (by
    rw [itemsAt_take (by rw [i1.1]; exact hL), itemsAt_take (by rw [i2.1]; omega)]
    exact List.map_congr_left fun j hj => h j (List.mem_range.1 hj))
  have t1 := itemsAt_take (h := ({ h1 with buckets := bs } : HashBuckets T)) (L := L) (by rw [i1'.1, s1.1]; exact hL)
  have t2 := itemsAt_take (h := ({ h2 with buckets := cs } : HashBuckets T)) (L := L) (by rw [i2'.1, s2.1]; omega)
  simp only at t1 t2
  rw [t1, t2] at hp
  intro j hj
  have := congrArg (fun l => l[j]?) hp
  simpa [hj] using this

/-- The elements of a data set as they enter the table: padded by the client. -/
def Party.padded (P : Party p) (bits : Nat) (l : List Int) : List (ZMod p) :=
  l.map (fun z => ((zeroPad z (padSizeOf P.fieldbits bits) : Int) : ZMod p))

theorem blindC_length_le {D : Digest} {P : Party p} {dataBits : Nat} {h h' : HashBuckets (ZMod p)} {g g' : GenState p}
    {u : List (ZMod p)} {m : List (List (ZMod p))} (hb : blindC D 1 P dataBits h g = .ok (h', g', u, m)) :
    P.length ≤ h'.k := by
  obtain ⟨-, -, -, -, hbk, -⟩ := blindC_inv (le_refl _) hb
  by_contra hlt
  obtain ⟨b, hb⟩ := hbk h'.k (by omega)
  rw [HashBuckets.getBucket, if_neg (by omega)] at hb
  exact absurd hb (by simp)

/-- **C33 (shorter client).** Take two data sets that agree on the elements that belong to the buckets `0, …, length - 1`
(in the same order).  If `setRawData` returns for both, the outsourced matrices are equal: elements of the other buckets are
absent. -/
theorem C33_other_buckets_absent {D : Digest} {F : Factoring p} {hw : Nat} {w w1 w2 : World p} (hr : w.Reachable D F hw)
    {r : Ref} {P : Party p} (hP : w.party r = some P) {t : HashBuckets (ZMod p)} (ht : w.table P.table = some t)
    {a : HashAlg (ZMod p)} {d : ZMod p → List Byte} (ha : t.alg.map Prod.fst = some a) (hd : a.Computes d)
    {x y : Int} {xs ys : List Int} {bits n n' : Nat}
    (agree : ∀ i, i < P.length → inBucket d t.k (P.padded bits (x :: xs)) i = inBucket d t.k (P.padded bits (y :: ys)) i)
    (h1 : w.step D F hw (.setRawData r (some (x :: xs)) bits n) = .ok w1)
    (h2 : w.step D F hw (.setRawData r (some (y :: ys)) bits n') = .ok w2) :
    ∃ m, w1.blindedOf r = some m ∧ w2.blindedOf r = some m := by
  obtain ⟨-, t1, s1, g1, u1, m1, hT1, hb1, rfl⟩ := step_setRawData_inv hP h1
  obtain ⟨-, t2, s2, g2, u2, m2, hT2, hb2, rfl⟩ := step_setRawData_inv hP h2
  rw [ht] at hT1 hT2; obtain rfl := Option.some.inj hT1; obtain rfl := Option.some.inj hT2
  refine ⟨m1, blindedOf_afterRaw .., ?_⟩
  rw [blindedOf_afterRaw]
  have hl1 := blindC_length_le hb1
  obtain ⟨v1, a1, c1, d1, -, rfl, -⟩ := blindC_inv (le_refl _) hb1
  obtain ⟨v2, a2, c2, d2, -, rfl, -⟩ := blindC_inv (le_refl _) hb2
  have hi := Reachable.tables hr _ _ ht
  obtain ⟨i1, ss1⟩ := HashBuckets.addList_inv _ hi a1
  obtain ⟨i2, ss2⟩ := HashBuckets.addList_inv _ hi a2
  have hsk := (HashBuckets.conceal_inv i1 c1).2.1.1
  have hitems := conceal_prefix (L := P.length) i1 i2 (ss1.1.trans ss2.1.symm) (ss1.2.1.trans ss2.2.1.symm)
    (by have : P.length ≤ s1.k := hl1
        omega) c1 c2 (fun j hj => by
      rw [itemsAt_addList hd _ hi ha a1 j, itemsAt_addList hd _ hi ha a2 j]
      congr 1
      exact agree j hj)
  have hu : u1 = u2 := by
    have e : P.getUnknowns D P.degree = .ok u1 := d1
    have e' : P.getUnknowns D P.degree = .ok u2 := d2
    rw [e] at e'; exact Except.ok.inj e'
  subst hu
  congr 1
  unfold blindedMatrix
  refine (List.map_congr_left fun j hj => ?_).symm
  have hj' : j < P.length := List.mem_range.1 hj
  rw [hitems j hj']
  rfl

/-! ## The hypotheses are met -/

/-- C12: Alice outsources; then Bob, whose client uses the same table, ends the process. -/
example : ∃ w w1 : World 13, w.Reachable Demo.D Demo.F 4 ∧
    w.step Demo.D Demo.F 4 (.setRawData 1 (some [1, 0]) 1 0) = .ok w1 ∧
    w1.step Demo.D Demo.F 4 (.setRawData 2 (some [1]) 1 0) = .error (.exit 1) := by
  obtain ⟨w, t, hw, h1, h2, ht, ha, hk, hc⟩ := Demo.twoClients_ok
  obtain ⟨w1, hs, hf⟩ := Demo.next_step (c := .setRawData 1 (some [1, 0]) 1 0)
    (f := Demo.partyAnd 2 (fun P => P.cls == .client && P.table == 0)) hw (by decide +kernel)
  obtain ⟨P2, hP2, hf⟩ := Demo.partyAnd_ex hf
  simp only [Bool.and_eq_true, beq_iff_eq] at hf
  have hr : w.Reachable Demo.D Demo.F 4 := ⟨_, _, _, hw⟩
  exact ⟨w, w1, hr, hs,
    (C12_setRawData_once_per_table hr h1 hs ht ha Demo.alg_computes).2 [] w1 rfl 2 P2 hP2 hf.1 hf.2 1 [] 1 0⟩

/-- C33, longer: Bob's client has length 3, the table 2 buckets. -/
example : ∃ w : World 13, w.Reachable Demo.D Demo.F 4 ∧
    w.step Demo.D Demo.F 4 (.setRawData 2 (some [1]) 1 0) = .error (.exit 1) := by
  obtain ⟨w, t, hw, h1, h2, ht, ha, hk, hc⟩ := Demo.twoClients_ok
  have hr : w.Reachable Demo.D Demo.F 4 := ⟨_, _, _, hw⟩
  exact ⟨w, hr, C33_longer_client_exits hr h2 rfl ht ha Demo.alg_computes (by omega) (by decide) (Or.inr (by simp [hc]))
    (by rw [hk]; decide) 1 [] 1 0⟩

/-- C33, shorter: a client of length 1 with a table of 2 buckets; the data 0 and 8 belong to bucket 0, and replacing the
element 3 by 1 (both in bucket 1) changes nothing. -/
example : ∃ (w w1 w2 : World 13) (m : List (List (ZMod 13))), w.Reachable Demo.D Demo.F 4 ∧
    w.step Demo.D Demo.F 4 (.setRawData 1 (some [0, 8, 3]) 3 0) = .ok w1 ∧
    w.step Demo.D Demo.F 4 (.setRawData 1 (some [0, 8, 1]) 3 0) = .ok w2 ∧ w1.blindedOf 1 = some m ∧ w2.blindedOf 1 = some m := by
  have hex : ∃ w t, (World.init [] [5]).runCalls Demo.D Demo.F 4
      [.newTable 0 2 3 (some Demo.alg), .newClient 1 0 13 1 1 3 Demo.aliceId 258] = .ok w ∧
      w.party 1 = some (Party.newClient 0 13 1 1 3 Demo.aliceId 258) ∧ w.table 0 = some t ∧ t.alg.map Prod.fst = some Demo.alg ∧
      t.k = 2 := ⟨_, _, rfl, rfl, rfl, rfl, rfl⟩
  obtain ⟨w, t, hw, h1, ht, ha, hk⟩ := hex
  have hr : w.Reachable Demo.D Demo.F 4 := ⟨_, _, _, hw⟩
  obtain ⟨w1, hs1, -⟩ := Demo.next_step (c := .setRawData 1 (some [0, 8, 3]) 3 0) (f := fun _ => true) hw (by decide +kernel)
  obtain ⟨w2, hs2, -⟩ := Demo.next_step (c := .setRawData 1 (some [0, 8, 1]) 3 0) (f := fun _ => true) hw (by decide +kernel)
  obtain ⟨m, hm⟩ := C33_other_buckets_absent hr h1 ht ha Demo.alg_computes (by
    intro i hi
    obtain rfl : i = 0 := by
      have : i < 1 := hi
      omega
    rw [hk]; decide +kernel) hs1 hs2
  exact ⟨w, w1, w2, m, hr, hs1, hs2, hm⟩

end EoPsi
