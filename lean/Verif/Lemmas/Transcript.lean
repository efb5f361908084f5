import Verif.Lemmas.Console
import Verif.Lemmas.Deliver
import Verif.Lemmas.Run

/-! # What a delivery that ends regularly has written -/

set_option linter.unusedSectionVars false

namespace EoPsi

variable {p : Nat} {α β : Type}

/-! ## Reading a run backwards -/

namespace N

theorem bind_inv {x : N p α} {f : α → N p β} {w w' : World p} {τ τ' : Term p} {b : β} (h : (x >>= f) w τ = .ok b w' τ') :
    ∃ a w1 τ1, x w τ = .ok a w1 τ1 ∧ f a w1 τ1 = .ok b w' τ' := by
  rw [run_bind] at h
  cases hx : x w τ with
  | ok a w1 τ1 => rw [hx] at h; exact ⟨a, w1, τ1, rfl, h⟩
  | thrown e w1 τ1 => rw [hx] at h; exact nomatch h
  | fault f τ1 => rw [hx] at h; exact nomatch h

theorem lift_inv {x : M p α} {w w' : World p} {τ τ' : Term p} {a : α} (h : lift x w τ = .ok a w' τ') : x w = .ok a w' ∧ τ' = τ := by
  rw [run_lift] at h
  cases hx : x w with
  | ok b w1 => rw [hx] at h; cases h; exact ⟨rfl, rfl⟩
  | thrown e w1 => rw [hx] at h; exact nomatch h
  | fault f => rw [hx] at h; exact nomatch h

theorem chrono_inv {clock : Nat → Int} {r : Ref} {c : Bench.Call} {w w' : World p} {τ τ' : Term p} {u : Unit} (h : chrono clock r c w τ = .ok u w' τ') :
    ∃ b, (τ.bm r).call (clock τ.ticks) c = .ok b ∧ w' = w ∧ τ' = ⟨upd τ.bm r b, τ.ticks + 1, τ.out⟩ := by
  unfold chrono at h
  cases hb : (τ.bm r).call (clock τ.ticks) c with
  | ok b => rw [hb] at h; cases h; exact ⟨b, rfl, rfl, rfl⟩
  | error f => rw [hb] at h; exact nomatch h

theorem ask_inv {r : Ref} {f : Bench → C α} {w w' : World p} {τ τ' : Term p} {a : α} (h : ask r f w τ = .ok a w' τ') : f (τ.bm r) = .ok a ∧ w' = w ∧ τ' = τ := by
  unfold ask at h
  cases hb : f (τ.bm r) with
  | ok b => rw [hb] at h; cases h; exact ⟨rfl, rfl, rfl⟩
  | error f => rw [hb] at h; exact nomatch h

theorem ticking_inv {n : Nat} {f : Nat → C α} {w w' : World p} {τ τ' : Term p} {a : α} (h : ticking n f w τ = .ok a w' τ') :
    f τ.ticks = .ok a ∧ w' = w ∧ τ' = ⟨τ.bm, τ.ticks + n, τ.out⟩ := by
  unfold ticking at h
  cases hb : f τ.ticks with
  | ok b => rw [hb] at h; cases h; exact ⟨rfl, rfl, rfl⟩
  | error f => rw [hb] at h; exact nomatch h

theorem emit_inv {l : Line p} {w w' : World p} {τ τ' : Term p} {u : Unit} (h : emit l w τ = .ok u w' τ') : w' = w ∧ τ' = ⟨τ.bm, τ.ticks, τ.out ++ [l]⟩ := by
  cases h; exact ⟨rfl, rfl⟩

theorem idOf_inv {r : Ref} {w w' : World p} {τ τ' : Term p} {i : Id} (h : idOf r w τ = .ok i w' τ') : i = ((w.party r).map (·.id)).getD [] ∧ w' = w ∧ τ' = τ := by
  cases h; exact ⟨rfl, rfl, rfl⟩

theorem catch_inv {x : N p α} {f : Fault} {w w' : World p} {τ τ' : Term p} {a : α} (h : catchP x (fun _ => lift (M.fail f)) w τ = .ok a w' τ') :
    x w τ = .ok a w' τ' := by
  unfold catchP at h
  cases hx : x w τ with
  | ok b w1 τ1 => rw [hx] at h; exact h
  | thrown e w1 τ1 => rw [hx] at h; exact nomatch h
  | fault g τ1 => rw [hx] at h; exact nomatch h

end N

theorem party_inv {r : Ref} {w w' : World p} {P : Party p} (h : M.party r w = .ok P w') : w.party r = some P ∧ w' = w := by
  cases hP : w.party r with
  | none => rw [M.run_party_none hP] at h; exact nomatch h
  | some Q => rw [M.run_party hP] at h; cases h; exact ⟨rfl, rfl⟩

theorem setParty_inv {r : Ref} {w w' : World p} {g : Party p → Party p} {u : Unit} (h : M.setParty r g w = .ok u w') :
    ∃ P, w.party r = some P ∧ w' = { w with party := upd w.party r (some (g P)) } := by
  cases hP : w.party r with
  | none => unfold M.setParty at h; rw [hP] at h; exact nomatch h
  | some Q => rw [M.run_setParty _ hP] at h; cases h; exact ⟨Q, rfl, rfl⟩

theorem liftC_inv {x : C α} {w w' : World p} {a : α} (h : M.liftC x w = .ok a w') : x = .ok a ∧ w' = w := by
  cases x with
  | ok b => cases h; exact ⟨rfl, rfl⟩
  | error f => exact nomatch h

theorem msg_inv {m : MRef} {w w' : World p} {μ : Msg} (h : M.msg m w = .ok μ w') : w.msgAt m = some μ ∧ w' = w := by
  cases hm : w.msgAt m with
  | none => rw [M.run_msg_none hm] at h; exact nomatch h
  | some ν => rw [M.run_msg hm] at h; cases h; exact ⟨rfl, rfl⟩

/-! ## The chronometer of a party -/

theorem run_snoc {cs : List (Bench.Call × Int)} {b b' : Bench} {c : Bench.Call} {t : Int} (h : Bench.new.run cs = .ok b) (h' : b.call t c = .ok b') :
    Bench.new.run (cs ++ [(c, t)]) = .ok b' := by
  rw [bench_run_append, h, ok_bind, Bench.run, h', ok_bind]
  rfl

theorem call_start {b b' : Bench} {t : Int} (h : b.call t .start = .ok b') : Bench.new.run [(.start, t)] = .ok b' := by
  cases h; rfl

open Chrono

theorem run_total {cs : List (Bench.Call × Int)} {b : Bench} {t : Int} (h : Bench.new.run cs = .ok b) (ht : b.cumulative 0 true = .ok t) :
    t = (running (intervals (after cs).log)).sum := by
  obtain ⟨b', hb, e⟩ := C49_running_time cs
  rw [h] at hb
  obtain rfl := Except.ok.inj hb
  rw [ht] at e
  exact Except.ok.inj e

theorem run_upto {cs : List (Bench.Call × Int)} {b : Bench} {t : Int} {name : String} (hn : name ≠ "") (h : Bench.new.run cs = .ok b) (ht : b.cumulativeAt name true = .ok t)
    {c : Nat} (h1 : 1 ≤ c) (hc : c < (after cs).log.length) (hl : LastNamed (after cs).log name c) : t = (running ((intervals (after cs).log).take c)).sum := by
  obtain ⟨b', hb, e, -⟩ := C49_named cs name hn c hl true
  obtain ⟨b'', hb', e'⟩ := C49_running_time_to cs c h1 hc
  rw [h] at hb hb'
  obtain rfl := Except.ok.inj hb
  obtain rfl := Except.ok.inj hb'
  rw [ht, e'] at e
  exact Except.ok.inj e

theorem bm_start_stop {b : Bench} {a c t : Int} {n : String} (h : Bench.new.run [(.start, a), (.stop n, c)] = .ok b) (ht : b.cumulative 0 true = .ok t) : t = micro a c := by
  rw [run_total h ht]
  show ([micro a c] : List Int).sum = _
  simp

theorem bm_pause {b : Bench} {a c d e t : Int} {n n' : String} (h : Bench.new.run [(.start, a), (.pause n, c), (.cont, d), (.stop n', e)] = .ok b) (ht : b.cumulative 0 true = .ok t) :
    t = micro a c + micro d e := by
  rw [run_total h ht]
  show ([micro a c, micro d e] : List Int).sum = _
  simp

theorem bm_steps {b : Bench} {a c d t : Int} {n n' : String} (h : Bench.new.run [(.start, a), (.step n, c), (.stop n', d)] = .ok b) (ht : b.cumulative 0 true = .ok t) :
    t = micro a c + micro c d := by
  rw [run_total h ht]
  show ([micro a c, micro c d] : List Int).sum = _
  simp

theorem bm_named {b : Bench} {a c t : Int} {n : String} (hn : n ≠ "") (h : Bench.new.run [(.start, a), (.step n, c)] = .ok b) (ht : b.cumulativeAt n true = .ok t) : t = micro a c := by
  rw [run_upto hn h ht (c := 1) le_rfl (by show 1 < 2; decide) ⟨⟨_, rfl, rfl⟩, fun j r hj hr => ?_⟩]
  · show ([micro a c] : List Int).sum = _
    simp
  · have hl := (List.getElem?_eq_some_iff.1 hr).1
    have : (after [(.start, a), (.step n, c)]).log.length = 2 := rfl
    omega

theorem bm_named_stop {b : Bench} {a c d t : Int} {n : String} (hn : n ≠ "") (h : Bench.new.run [(.start, a), (.step n, c), (.stop "", d)] = .ok b)
    (ht : b.cumulativeAt n true = .ok t) : t = micro a c := by
  rw [run_upto hn h ht (c := 1) le_rfl (by show 1 < 3; decide) ⟨⟨_, rfl, rfl⟩, fun j r hj hr => ?_⟩]
  · show ([micro a c] : List Int).sum = _
    simp
  · have hl := (List.getElem?_eq_some_iff.1 hr).1
    have : (after [(.start, a), (.step n, c), (.stop "", d)]).log.length = 3 := rfl
    obtain rfl : j = 2 := by omega
    obtain rfl : r = ⟨d, false, ""⟩ := (Option.some.inj hr).symm
    exact Ne.symm hn

/-! ## A matrix is received -/

variable [Fact p.Prime]

theorem intersect_prints {clock : Nat → Int} {D : Digest} {F : Factoring p} {r : Ref} {w w' : World p} {τ τ' : Term p} {done : Bool}
    (h : Console.intersect clock D F r w τ = .ok done w' τ') : ∃ P, w.party r = some P ∧
      ((done = false ∧ (P.q = none ∨ P.t = none) ∧ w' = w ∧ τ' = τ) ∨
       (done = true ∧ P.q ≠ none ∧ P.t ≠ none ∧ ∃ P' l, w'.party r = some P' ∧ (∀ x, x ≠ r → w'.party x = w.party x) ∧ P'.id = P.id ∧ P'.length = P.length ∧
          statisticsLine clock P.length P'.setcap.length τ.ticks = .ok l ∧ τ' = ⟨τ.bm, τ.ticks + (8 * P.length + 6), τ.out ++ [l]⟩)) := by
  unfold Console.intersect at h
  replace h := N.bind_inv h
  obtain ⟨P, w1, τ1, h1, h⟩ := h
  obtain ⟨h1', rfl⟩ := N.lift_inv h1
  obtain ⟨hP, rfl⟩ := party_inv h1'
  refine ⟨P, hP, ?_⟩
  cases hb : P.rawDataBits with
  | none => rw [hb] at h; exact nomatch h
  | some bits =>
    rw [hb] at h
    simp only at h
    by_cases hq : P.q = none ∨ P.t = none
    · rw [if_pos hq] at h
      cases h
      exact Or.inl ⟨rfl, hq, rfl, rfl⟩
    · rw [if_neg hq] at h
      replace h := N.bind_inv h
      obtain ⟨w2, w3, τ3, h2, h⟩ := h
      obtain ⟨h2', rfl⟩ := N.lift_inv h2
      cases h2'
      replace h := N.bind_inv h
      obtain ⟨diff, w4, τ4, h3, h⟩ := h
      obtain ⟨h3', rfl⟩ := N.lift_inv h3
      obtain ⟨-, rfl⟩ := liftC_inv h3'
      replace h := N.bind_inv h
      obtain ⟨u, w5, τ5, h4, h⟩ := h
      obtain ⟨h4', rfl⟩ := N.lift_inv h4
      obtain ⟨-, rfl⟩ := liftC_inv h4'
      replace h := N.bind_inv h
      obtain ⟨o, w6, τ6, h5, h⟩ := h
      obtain ⟨h5', rfl⟩ := N.lift_inv h5
      obtain ⟨-, rfl⟩ := liftC_inv h5'
      replace h := N.bind_inv h
      obtain ⟨⟨⟩, w7, τ7, h6, h⟩ := h
      obtain ⟨h6', rfl⟩ := N.lift_inv h6
      obtain ⟨P1, hP1, rfl⟩ := setParty_inv h6'
      rw [hP] at hP1
      obtain rfl := Option.some.inj hP1
      replace h := N.bind_inv h
      obtain ⟨l, w8, τ8, h7, h⟩ := h
      obtain ⟨h7', rfl, rfl⟩ := N.ticking_inv h7
      replace h := N.bind_inv h
      obtain ⟨⟨⟩, w9, τ9, h8, h⟩ := h
      obtain ⟨rfl, rfl⟩ := N.emit_inv h8
      cases h
      push Not at hq
      refine Or.inr ⟨rfl, hq.1, hq.2, _, l, upd_same _ _ _, fun x hx => upd_ne _ _ hx, rfl, rfl, h7', rfl⟩

theorem deleteMat_party {x : Ptr} {w w' : World p} {u : Unit} (h : M.deleteMat x w = .ok u w') : w'.party = w.party := by
  cases x with
  | none => cases h; rfl
  | some a =>
    cases hc : w.cell a with
    | none => simp only [M.deleteMat, hc] at h; exact nomatch h
    | some c =>
      cases c with
      | bytes b => simp only [M.deleteMat, hc] at h; exact nomatch h
      | matrix m => simp only [M.deleteMat, hc] at h; cases h; rfl

/-- The common end of the two cases, after `bm.start()` with the call number `k` and the line with the first value. -/
theorem finish_prints {clock : Nat → Int} {D : Digest} {F : Factoring p} {r : Ref} {type : MsgType} {w w' : World p} {τ τ' : Term p} {t0 : Int}
    (hbm : Bench.new.run [(.start, t0)] = .ok (τ.bm r)) (h : Console.intersectAndDelete clock D F r type w τ = .ok () w' τ') :
    ∃ P P', w.party r = some P ∧ w'.party r = some P' ∧ (∀ x, x ≠ r → w'.party x = w.party x) ∧ (∀ x, x ≠ r → τ'.bm x = τ.bm x) ∧ P'.id = P.id ∧
      (((P.q = none ∨ P.t = none) ∧ τ'.ticks = τ.ticks + 1 ∧ τ'.out = τ.out ++ [.receivingTime type (micro t0 (clock τ.ticks))]) ∨
       (P.q ≠ none ∧ P.t ≠ none ∧ ∃ l, statisticsLine clock P.length P'.setcap.length (τ.ticks + 1) = .ok l ∧ τ'.ticks = τ.ticks + 1 + (8 * P.length + 6) + 1 ∧
        τ'.out = τ.out ++ [l, .findingTime (micro t0 (clock τ.ticks) + micro (clock τ.ticks) (clock (τ.ticks + 1 + (8 * P.length + 6)))),
          .receivingTime type (micro t0 (clock τ.ticks))])) := by
  unfold Console.intersectAndDelete at h
  replace h := N.bind_inv h
  obtain ⟨⟨⟩, w1, τ1, h1, h⟩ := h
  obtain ⟨b1, hb1, rfl, rfl⟩ := N.chrono_inv h1
  have r1 := run_snoc hbm hb1
  replace h := N.bind_inv h
  obtain ⟨done, w2, τ2, h2, h⟩ := h
  obtain ⟨P, hP, ⟨rfl, hq, rfl, rfl⟩ | ⟨rfl, hq, ht, P', l, hP', hoth, hid, hlen, hl, rfl⟩⟩ := intersect_prints h2
  · simp only [Bool.false_eq_true, if_false] at h
    replace h := N.bind_inv h
    obtain ⟨t, w4, τ4, h4, h⟩ := h
    obtain ⟨h4', rfl, rfl⟩ := N.ask_inv h4
    obtain ⟨rfl, rfl⟩ := N.emit_inv h
    simp only [upd_same] at h4'
    obtain rfl := bm_named (by decide) r1 h4'
    exact ⟨P, P, hP, hP, fun _ _ => rfl, fun x hx => upd_ne _ _ hx, rfl, Or.inl ⟨hq, rfl, rfl⟩⟩
  · simp only [if_true] at h
    replace h := N.bind_inv h
    obtain ⟨⟨⟩, w3, τ3, h3, h⟩ := h
    obtain ⟨b2, hb2, rfl, rfl⟩ := N.chrono_inv h3
    simp only [upd_same] at hb2
    have r2 := run_snoc r1 hb2
    replace h := N.bind_inv h
    obtain ⟨t, w4, τ4, h4, h⟩ := h
    obtain ⟨h4', rfl, rfl⟩ := N.ask_inv h4
    simp only [upd_same] at h4'
    obtain rfl := bm_steps r2 h4'
    replace h := N.bind_inv h
    obtain ⟨⟨⟩, w5, τ5, h5, h⟩ := h
    obtain ⟨rfl, rfl⟩ := N.emit_inv h5
    replace h := N.bind_inv h
    obtain ⟨P2, w6, τ6, h6, h⟩ := h
    obtain ⟨h6', rfl⟩ := N.lift_inv h6
    obtain ⟨hP2, rfl⟩ := party_inv h6'
    replace h := N.bind_inv h
    obtain ⟨⟨⟩, w7, τ7, h7, h⟩ := h
    obtain ⟨h7', rfl⟩ := N.lift_inv h7
    have e7 := deleteMat_party h7'
    replace h := N.bind_inv h
    obtain ⟨⟨⟩, w8, τ8, h8, h⟩ := h
    obtain ⟨h8', rfl⟩ := N.lift_inv h8
    have e8 := deleteMat_party h8'
    replace h := N.bind_inv h
    obtain ⟨t', w9, τ9, h9, h⟩ := h
    obtain ⟨h9', rfl, rfl⟩ := N.ask_inv h9
    obtain ⟨rfl, rfl⟩ := N.emit_inv h
    simp only [upd_same] at h9'
    obtain rfl := bm_named_stop (by decide) r2 h9'
    refine ⟨P, P', hP, by rw [e8, e7]; exact hP', fun x hx => by rw [e8, e7]; exact hoth x hx, fun x hx => ?_, hid, Or.inr ⟨hq, ht, l, hl, rfl, ?_⟩⟩
    · show upd (upd τ.bm r b1) r b2 x = _
      rw [upd_ne _ _ hx, upd_ne _ _ hx]
    · simp only [List.append_assoc, List.cons_append, List.nil_append]

end EoPsi
