import Verif.Spec.Console
import Verif.Lemmas.World
import Verif.Props.Tools

/-! # Forgetting the terminal gives back `Model/Protocol` -/

set_option linter.unusedSectionVars false

namespace EoPsi

variable {p : Nat} {α β : Type}

theorem Term.Le.refl (τ : Term p) : τ.Le τ := ⟨le_rfl, List.prefix_rfl⟩
theorem Term.Le.trans {τ τ' τ'' : Term p} (h : τ.Le τ') (h' : τ'.Le τ'') : τ.Le τ'' := ⟨h.1.trans h'.1, h.2.trans h'.2⟩

/-- `x` does what `y` does, and otherwise only adds to the terminal. -/
def Erases (x : N p α) (y : M p α) : Prop := ∀ w τ, τ.Wf → (x w τ).erase = y w ∧ (x w τ).term.Wf ∧ τ.Le (x w τ).term

theorem Term.start_wf : (Term.start : Term p).Wf := fun _ => ⟨[], rfl⟩

namespace N

@[simp] theorem run_bind (x : N p α) (f : α → N p β) (w : World p) (τ : Term p) :
    (x >>= f) w τ = match x w τ with | .ok a w' τ' => f a w' τ' | .thrown e w' τ' => .thrown e w' τ' | .fault g τ' => .fault g τ' := rfl
@[simp] theorem run_pure (a : α) (w : World p) (τ : Term p) : (pure a : N p α) w τ = .ok a w τ := rfl
@[simp] theorem run_emit (l : Line p) (w : World p) (τ : Term p) : emit l w τ = .ok () w { τ with out := τ.out ++ [l] } := rfl
@[simp] theorem run_idOf (r : Ref) (w : World p) (τ : Term p) : idOf r w τ = .ok (((w.party r).map (·.id)).getD []) w τ := rfl
theorem run_lift (x : M p α) (w : World p) (τ : Term p) :
    lift x w τ = match x w with | .ok a w' => .ok a w' τ | .thrown e w' => .thrown e w' τ | .fault f => .fault f τ := rfl
theorem run_lift_ok {x : M p α} {w w' : World p} {a : α} (h : x w = .ok a w') (τ : Term p) : lift x w τ = .ok a w' τ := by
  rw [run_lift, h]

end N

/-- Every call of a chronometer can be made. -/
theorem wf_call {τ : Term p} (h : τ.Wf) (r : Ref) (now : Int) (c : Bench.Call) : ∃ b cs, (τ.bm r).call now c = .ok b ∧ Bench.new.run cs = .ok b := by
  obtain ⟨cs, hcs⟩ := h r
  obtain ⟨b, hb, -⟩ := (Bench.rel_of_run hcs).call_next now c
  refine ⟨b, cs ++ [(c, now)], hb, ?_⟩
  have : ∀ (cs : List (Bench.Call × Int)) (b0 b1 : Bench), b0.run cs = .ok b1 → b0.run (cs ++ [(c, now)]) = b1.call now c := by
    intro cs
    induction cs with
    | nil =>
      intro b0 b1 h
      obtain rfl := Except.ok.inj h
      show (b0.call now c >>= fun b => Bench.run b []) = _
      cases b0.call now c <;> rfl
    | cons x cs ih =>
      intro b0 b1 h
      obtain ⟨c', t⟩ := x
      rw [Bench.run] at h
      obtain ⟨b2, h2, h3⟩ := bind_eq_ok h
      rw [List.cons_append, Bench.run, h2, ok_bind, ih b2 b1 h3]
  rw [this cs _ _ hcs, hb]

theorem Term.Wf.upd {τ : Term p} (h : τ.Wf) {r : Ref} {b : Bench} {cs : List (Bench.Call × Int)} (hb : Bench.new.run cs = .ok b) (k : Nat) (o : List (Line p)) :
    (⟨upd τ.bm r b, k, o⟩ : Term p).Wf := by
  intro x
  by_cases hx : x = r
  · subst hx
    exact ⟨cs, by rw [hb]; simp⟩
  · obtain ⟨cs', h'⟩ := h x
    exact ⟨cs', by rw [h']; simp only [upd_ne _ _ hx]⟩

theorem N.run_chrono {τ : Term p} (h : τ.Wf) (clock : Nat → Int) (r : Ref) (c : Bench.Call) (w : World p) :
    ∃ b cs, (τ.bm r).call (clock τ.ticks) c = .ok b ∧ Bench.new.run cs = .ok b ∧
      N.chrono clock r c w τ = .ok () w { τ with bm := upd τ.bm r b, ticks := τ.ticks + 1 } := by
  obtain ⟨b, cs, h1, h2⟩ := wf_call h r (clock τ.ticks) c
  refine ⟨b, cs, h1, h2, ?_⟩
  unfold N.chrono
  rw [h1]

namespace Erases

theorem lift (x : M p α) : Erases (N.lift x) x := by
  intro w τ h
  rw [N.run_lift]
  cases hx : x w with
  | ok a w' => exact ⟨rfl, h, .refl τ⟩
  | thrown e w' => exact ⟨rfl, h, .refl τ⟩
  | fault f => exact ⟨rfl, h, .refl τ⟩

theorem pure (a : α) : Erases (Pure.pure a : N p α) (Pure.pure a) := fun _ τ h => ⟨rfl, h, .refl τ⟩

theorem bind {x : N p α} {y : M p α} {f : α → N p β} {g : α → M p β} (h : Erases x y) (hf : ∀ a, Erases (f a) (g a)) : Erases (x >>= f) (y >>= g) := by
  intro w τ hτ
  obtain ⟨h1, h2, h3⟩ := h w τ hτ
  rw [N.run_bind, M.run_bind, ← h1]
  cases hx : x w τ with
  | ok a w' τ' =>
    rw [hx] at h2 h3
    obtain ⟨g1, g2, g3⟩ := hf a w' τ' h2
    exact ⟨g1, g2, h3.trans g3⟩
  | thrown e w' τ' => rw [hx] at h2 h3; exact ⟨rfl, h2, h3⟩
  | fault f τ' => rw [hx] at h2 h3; exact ⟨rfl, h2, h3⟩

/-- A step that does nothing but write. -/
def Silent (x : N p α) : Prop := ∀ w τ, τ.Wf → ∃ a τ', x w τ = .ok a w τ' ∧ τ'.Wf ∧ τ.Le τ'

theorem skip {x : N p α} {f : α → N p β} {y : M p β} (h : Silent x) (hf : ∀ a, Erases (f a) y) : Erases (x >>= f) y := by
  intro w τ hτ
  obtain ⟨a, τ', e, h2, h3⟩ := h w τ hτ
  rw [N.run_bind, e]
  obtain ⟨g1, g2, g3⟩ := hf a w τ' h2
  exact ⟨g1, g2, h3.trans g3⟩

theorem last {x : N p Unit} (h : Silent x) : Erases x (Pure.pure ()) := by
  intro w τ hτ
  obtain ⟨a, τ', e, h2, h3⟩ := h w τ hτ
  rw [e]
  exact ⟨rfl, h2, h3⟩

theorem emit (l : Line p) : Silent (N.emit l) := fun _ _ h => ⟨(), _, rfl, h, le_rfl, List.prefix_append _ _⟩
theorem idOf (r : Ref) : Silent (p := p) (N.idOf r) := fun _ τ h => ⟨_, _, rfl, h, .refl τ⟩

theorem chrono (clock : Nat → Int) (r : Ref) (c : Bench.Call) : Silent (p := p) (N.chrono clock r c) := by
  intro w τ h
  obtain ⟨b, cs, h1, h2, h3⟩ := N.run_chrono h clock r c w
  exact ⟨_, _, h3, h.upd h2 _ _, Nat.le_succ _, List.prefix_rfl⟩

theorem ask {r : Ref} {f : Bench → C α} (hf : ∀ cs b, Bench.new.run cs = .ok b → ∃ a, f b = .ok a) : Silent (p := p) (N.ask r f) := by
  intro w τ h
  obtain ⟨cs, hcs⟩ := h r
  obtain ⟨a, ha⟩ := hf cs _ hcs
  refine ⟨a, τ, ?_, h, .refl τ⟩
  unfold N.ask
  rw [ha]

theorem ticking {n : Nat} {f : Nat → C α} (hf : ∀ k, ∃ a, f k = .ok a) : Silent (p := p) (N.ticking n f) := by
  intro w τ h
  obtain ⟨a, ha⟩ := hf τ.ticks
  refine ⟨a, { τ with ticks := τ.ticks + n }, ?_, h, Nat.le_add_right _ _, List.prefix_rfl⟩
  unfold N.ticking
  rw [ha]

theorem catchP {x : N p α} {y : M p α} {f : Exc → N p α} {g : Exc → M p α} (h : Erases x y) (hf : ∀ e, Erases (f e) (g e)) :
    Erases (N.catchP x f) (M.catchP y g) := by
  intro w τ hτ
  obtain ⟨h1, h2, h3⟩ := h w τ hτ
  unfold N.catchP M.catchP
  rw [← h1]
  cases hx : x w τ with
  | ok a w' τ' => rw [hx] at h2 h3; exact ⟨rfl, h2, h3⟩
  | thrown e w' τ' =>
    rw [hx] at h2 h3
    obtain ⟨g1, g2, g3⟩ := hf e w' τ' h2
    exact ⟨g1, g2, h3.trans g3⟩
  | fault f τ' => rw [hx] at h2 h3; exact ⟨rfl, h2, h3⟩

theorem ite {c : Prop} [Decidable c] {x x' : N p α} {y y' : M p α} (h : Erases x y) (h' : Erases x' y') : Erases (if c then x else x') (if c then y else y') := by
  split <;> assumption

/-- If the rest of `y` is nothing. -/
theorem tail {x : N p Unit} {y : M p Unit} {f : Unit → N p Unit} (h : Erases x y) (hf : ∀ a, Erases (f a) (Pure.pure ())) : Erases (x >>= f) y := by
  have := bind h hf
  intro w τ hτ
  obtain ⟨h1, h2⟩ := this w τ hτ
  refine ⟨?_, h2⟩
  rw [h1, M.run_bind]
  cases y w <;> rfl

end Erases

/-! ## The statistics -/

/-- The times at which a part of the loop begins and ends. -/
def partSpans (clock : Nat → Int) (off n k : Nat) : List (Int × Int) :=
  (List.range n).map (fun j => (clock (k + 8 * j + off), clock (k + 8 * j + off + 1)))

theorem partSpans_succ (clock : Nat → Int) (off n k : Nat) :
    partSpans clock off (n + 1) k = (clock (k + off), clock (k + off + 1)) :: partSpans clock off n (k + 8) := by
  unfold partSpans
  rw [List.range_succ_eq_map, List.map_cons, List.map_map]
  congr 1
  apply List.map_congr_left
  intro j _
  simp only [Function.comp]
  rw [show k + 8 * (j + 1) + off = k + 8 + 8 * j + off by omega]

theorem bench_run_append (cs cs' : List (Bench.Call × Int)) (b : Bench) : b.run (cs ++ cs') = b.run cs >>= fun b => b.run cs' := by
  induction cs generalizing b with
  | nil => rfl
  | cons x cs ih =>
    obtain ⟨c, t⟩ := x
    rw [List.cons_append, Bench.run, Bench.run]
    cases b.call t c with
    | error f => rfl
    | ok b => exact ih b

theorem partLoop_run (clock : Nat → Int) (off n : Nat) : ∀ (k : Nat) (b : Bench), partLoop clock off n k b =
    b.run ((partSpans clock off n k).map (fun x => [(Bench.Call.step "", x.1), (Bench.Call.pause "", x.2)])).flatten := by
  induction n with
  | zero => intro k b; rfl
  | succ n ih =>
    intro k b
    rw [partSpans_succ, List.map_cons, List.flatten_cons, bench_run_append, partLoop]
    change _ = (b.call (clock (k + off)) (.step "") >>= fun b => Bench.run b [(.pause "", clock (k + off + 1))]) >>= _
    rw [show b.call (clock (k + off)) .cont = b.call (clock (k + off)) (.step "") from rfl]
    cases h1 : b.call (clock (k + off)) (.step "") with
    | error f => rfl
    | ok b1 =>
      rw [ok_bind, ok_bind, Bench.run]
      cases h2 : b1.call (clock (k + off + 1)) (.pause "") with
      | error f => rfl
      | ok b2 =>
        rw [ok_bind, ok_bind, ih]
        rfl

theorem partBench_run (clock : Nat → Int) (off n k last : Nat) : partBench clock off n k last = Bench.new.run (polyfactCalls (partSpans clock off n k) (clock last)) := by
  unfold partBench partAfter polyfactCalls
  rw [partLoop_run, bench_run_append]
  congr 1
  funext b
  rw [Bench.run]
  cases b.call (clock last) (.stop "") <;> rfl

theorem partTimes_defined {cs : List (Bench.Call × Int)} {b : Bench} (h : Bench.new.run cs = .ok b) : ∃ t, partTimes b = .ok t := by
  obtain ⟨b', hb, ⟨t, ht⟩, -, -, ⟨a, ha⟩, -, ⟨d, hd⟩⟩ := C53_others_defined cs 0 true
  rw [h] at hb
  obtain rfl := Except.ok.inj hb
  unfold partTimes
  rw [ha, ok_bind, hd, ok_bind, ht, ok_bind]
  exact ⟨_, rfl⟩

theorem cumulative_defined {cs : List (Bench.Call × Int)} {b : Bench} (h : Bench.new.run cs = .ok b) (c : Nat) : ∃ t, b.cumulative c true = .ok t := by
  obtain ⟨b', hb, ⟨t, ht⟩, -⟩ := C53_others_defined cs c true
  rw [h] at hb
  obtain rfl := Except.ok.inj hb
  exact ⟨t, ht⟩

theorem statisticsLine_defined (clock : Nat → Int) (n size k : Nat) : ∃ l : Line p, statisticsLine clock n size k = .ok l := by
  unfold statisticsLine
  simp only []
  have part : ∀ off last, ∃ b t, partBench clock off n (k + 1) last = .ok b ∧ partTimes b = .ok t := by
    intro off last
    obtain ⟨b, hb, -⟩ := Bench.run_rel (polyfactCalls (partSpans clock off n (k + 1)) (clock last))
    obtain ⟨t, ht⟩ := partTimes_defined hb
    exact ⟨b, t, by rw [partBench_run, hb], ht⟩
  obtain ⟨b0, t0, h0, g0⟩ := part 0 (k + 1 + 8 * n)
  obtain ⟨b1, t1, h1, g1⟩ := part 2 (k + 1 + 8 * n + 1)
  obtain ⟨b2, t2, h2, g2⟩ := part 4 (k + 1 + 8 * n + 2)
  obtain ⟨b3, t3, h3, g3⟩ := part 6 (k + 1 + 8 * n + 3)
  obtain ⟨bi, hi, -⟩ := Bench.run_rel [(.start, clock k), (.stop "", clock (k + 1 + 8 * n + 4))]
  have hi' : (Bench.new.start (clock k)).call (clock (k + 1 + 8 * n + 4)) (.stop "") = .ok bi := by
    rw [Bench.run, show Bench.new.call (clock k) .start = .ok (Bench.new.start (clock k)) from rfl, ok_bind, Bench.run] at hi
    cases hc : (Bench.new.start (clock k)).call (clock (k + 1 + 8 * n + 4)) (.stop "") with
    | error f => rw [hc] at hi; exact nomatch hi
    | ok b => rw [hc] at hi; exact hi
  obtain ⟨t, ht⟩ := cumulative_defined hi 0
  rw [h0, ok_bind, h1, ok_bind, h2, ok_bind, h3, ok_bind, hi', ok_bind, g0, ok_bind, g1, ok_bind, g2, ok_bind, g3, ok_bind, ht, ok_bind]
  exact ⟨_, rfl⟩

/-! ## The functions of the protocol -/

section
variable [Fact p.Prime]
variable (clock : Nat → Int) (D : Digest) (F : Factoring p)

open Erases

theorem ask_cumulative (r : Ref) : Silent (p := p) (N.ask r (fun b => b.cumulative 0 true)) := ask (fun _ _ h => cumulative_defined h 0)
theorem ask_named (r : Ref) (name : String) : Silent (p := p) (N.ask r (fun b => b.cumulativeAt name true)) :=
  ask (fun _ _ h => cumulative_defined h _)

theorem setRawData_erases (hw : Nat) (r : Ref) (d : Option (List Int)) (bits n : Nat) : Erases (Console.setRawData (p := p) D hw r d bits n) (setRawData D hw r d bits n) := by
  unfold Console.setRawData
  refine Erases.tail (.lift _) (fun _ => ?_)
  cases d with
  | none => exact .pure ()
  | some l =>
    cases l with
    | nil => exact .pure ()
    | cons z zs => exact skip (idOf r) (fun _ => last (emit _))

theorem intersect_erases (r : Ref) : Erases (Console.intersect clock D F r) (intersect D F r) := by
  unfold Console.intersect intersect
  refine .bind (.lift _) (fun P => ?_)
  cases P.rawDataBits with
  | none => exact .lift _
  | some bits =>
    refine .ite (.pure _) ?_
    refine .bind (.lift _) (fun w => .bind (.lift _) (fun diff => .bind (.lift _) (fun u => .bind (.lift _) (fun o => .bind (.lift _) (fun _ => ?_)))))
    exact skip (ticking (fun k => statisticsLine_defined clock _ _ k)) (fun l => skip (emit l) (fun _ => .pure _))

theorem intersectAndDelete_erases (r : Ref) (type : MsgType) : Erases (Console.intersectAndDelete clock D F r type) (intersectAndDelete D F r) := by
  unfold Console.intersectAndDelete intersectAndDelete
  refine skip (chrono clock r _) (fun _ => .bind (intersect_erases clock D F r) (fun done => ?_))
  have e : ∀ (_ : Unit), Erases (do let t ← N.ask r (fun b => b.cumulativeAt "int-unsure" true); N.emit (.receivingTime type t)) (Pure.pure () : M p Unit) :=
    fun _ => skip (ask_named r _) (fun t => last (emit _))
  cases done with
  | false => exact e ()
  | true =>
    refine skip (chrono clock r _) (fun _ => skip (ask_cumulative r) (fun t => skip (emit _) (fun _ => .bind (.lift _) (fun P => .bind (.lift _) (fun _ => ?_)))))
    exact .tail (.lift _) e

theorem handleClientRequest_erases {recv : Ref → MRef → N p Unit} {recv' : Ref → MRef → M p Unit} (h : ∀ r m, Erases (recv r m) (recv' r m)) (r s : Ref) (μ : Msg) :
    Erases (Console.handleClientRequest clock D recv r s μ) (handleClientRequest D recv' r s μ) := by
  unfold Console.handleClientRequest handleClientRequest
  refine .bind (.lift _) (fun P => .bind (.lift _) (fun S => skip (chrono clock r _) (fun _ => .bind (.lift _) (fun w => .bind (.lift _) (fun buf => .bind (.lift _) (fun claimed => ?_))))))
  refine .ite (.lift _) (.bind (.lift _) (fun kn => .bind (.lift _) (fun _ => .bind (.lift _) (fun a => .bind (.lift _) (fun _ => .bind (.lift _) (fun cloud => ?_))))))
  cases cloud with
  | none => exact .lift _
  | some c =>
    refine .bind (.lift _) (fun other => skip (emit _) (fun _ => skip (idOf c) (fun _ => skip (emit _) (fun _ => skip (chrono clock r _) (fun _ => ?_)))))
    refine .bind (catchP (h c _) (fun _ => .lift _)) (fun _ => skip (chrono clock r _) (fun _ => .bind (.lift _) (fun P => .bind (.lift _) (fun um => ?_))))
    refine .bind (.lift _) (fun b => .bind (.lift _) (fun _ => skip (chrono clock r _) (fun _ => skip (ask_cumulative r) (fun t => skip (emit _) (fun _ => h s _)))))

theorem handleOutput_erases (r s : Ref) (μ : Msg) : Erases (Console.handleOutput clock D F r s μ) (handleOutput D F r μ) := by
  unfold Console.handleOutput handleOutput
  exact skip (chrono clock r _) (fun _ => .bind (.lift _) (fun _ => .bind (.lift _) (fun w => .bind (.lift _) (fun v =>
    skip (idOf r) (fun _ => skip (idOf s) (fun _ => skip (emit _) (fun _ => intersectAndDelete_erases clock D F r _)))))))

theorem handlePolynomial_erases (r s : Ref) (μ : Msg) : Erases (Console.handlePolynomial clock D F r s μ) (handlePolynomial D F r μ) := by
  unfold Console.handlePolynomial handlePolynomial
  exact skip (chrono clock r _) (fun _ => .bind (.lift _) (fun _ => .bind (.lift _) (fun w => .bind (.lift _) (fun v =>
    skip (idOf r) (fun _ => skip (idOf s) (fun _ => skip (emit _) (fun _ => intersectAndDelete_erases clock D F r _)))))))

theorem clientReceive_erases {recv : Ref → MRef → N p Unit} {recv' : Ref → MRef → M p Unit} (h : ∀ r m, Erases (recv r m) (recv' r m)) (r : Ref) (m : MRef) :
    Erases (Console.clientReceive clock D F recv r m) (clientReceive D F recv' r m) := by
  unfold Console.clientReceive clientReceive
  refine .bind (.lift _) (fun P => .bind (.lift _) (fun μ => .ite (.lift _) (.bind (.lift _) (fun auth => .ite (.lift _) ?_))))
  cases P.getPartyById μ.partyId with
  | none => exact .lift _
  | some s =>
    cases μ.type with
    | clientRequest => exact handleClientRequest_erases clock D h r s μ
    | output => exact handleOutput_erases clock D F r s μ
    | polynomial => exact handlePolynomial_erases clock D F r s μ
    | cloudRequest => exact .lift _
    | outsourcingData => exact .lift _
    | unknown => exact .lift _

theorem handleCloudRequest_erases {recv : Ref → MRef → N p Unit} {recv' : Ref → MRef → M p Unit} (h : ∀ r m, Erases (recv r m) (recv' r m)) (r s : Ref) (μ : Msg) :
    Erases (Console.handleCloudRequest clock D recv r s μ) (handleCloudRequest D recv' r s μ) := by
  unfold Console.handleCloudRequest handleCloudRequest
  refine .bind (.lift _) (fun P => .bind (.lift _) (fun S => skip (chrono clock r _) (fun _ => .ite (.lift _) ?_)))
  refine .bind (.lift _) (fun w => .bind (.lift _) (fun buf => .bind (.lift _) (fun claimed => .ite (.lift _) ?_)))
  refine .bind (.lift _) (fun partner => .bind (.lift _) (fun kb => skip (emit _) (fun _ => .bind (.lift _) (fun um => .bind (.lift _) (fun a => .bind (.lift _) (fun _ => ?_))))))
  refine skip (chrono clock r _) (fun _ => skip (ask_cumulative r) (fun t => skip (emit _) (fun _ => ?_)))
  cases P.getPartyById partner with
  | none => exact .lift _
  | some b => exact .bind (h b _) (fun _ => .lift _)

theorem handleOutsourcing_erases (r s : Ref) (m : MRef) (μ : Msg) : Erases (Console.handleOutsourcing (p := p) clock r s m μ) (handleOutsourcing r s m) := by
  unfold Console.handleOutsourcing handleOutsourcing
  refine .bind (.lift _) (fun S => skip (chrono clock r _) (fun _ => .ite (.lift _) (.tail (.lift _) (fun _ => ?_))))
  exact skip (idOf r) (fun _ => skip (emit _) (fun _ => skip (chrono clock r _) (fun _ => skip (ask_cumulative r) (fun t => last (emit _)))))

theorem serverReceive_erases {recv : Ref → MRef → N p Unit} {recv' : Ref → MRef → M p Unit} (h : ∀ r m, Erases (recv r m) (recv' r m)) (r : Ref) (m : MRef) :
    Erases (Console.serverReceive clock D recv r m) (serverReceive D recv' r m) := by
  unfold Console.serverReceive serverReceive
  refine .bind (.lift _) (fun P => .bind (.lift _) (fun μ => .ite (.lift _) (.bind (.lift _) (fun auth => .ite (.lift _) ?_))))
  cases P.getPartyById μ.partyId with
  | none => exact .lift _
  | some s =>
    cases μ.type with
    | cloudRequest => exact handleCloudRequest_erases clock D h r s μ
    | outsourcingData => exact handleOutsourcing_erases clock r s m μ
    | output => exact .lift _
    | clientRequest => exact .lift _
    | polynomial => exact .lift _
    | unknown => exact .lift _

theorem receiveN_erases (n : Nat) : ∀ r m, Erases (Console.receiveN clock D F n r m) (receiveN D F n r m) := by
  induction n with
  | zero => intro r m; exact .lift _
  | succ n ih =>
    intro r m
    rw [Console.receiveN, receiveN]
    refine .bind (.lift _) (fun P => ?_)
    cases P.cls with
    | client => exact clientReceive_erases clock D F ih r m
    | server => exact serverReceive_erases clock D ih r m

theorem send_erases (s r : Ref) (m : Option MRef) : Erases (Console.send clock D F s r m) (send D F s r m) := by
  cases m with
  | none => exact .lift (M.throwP .nullMessage)
  | some m => exact receiveN_erases clock D F 3 r m

end

end EoPsi
