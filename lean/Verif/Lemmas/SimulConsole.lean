import Verif.Model.SimulConsole
import Verif.Lemmas.SimulMain
import Verif.Lemmas.ConsoleRun
import Verif.Props.Programs

/-! # `main` of the simulator with terminal and clock: erasure -/

set_option linter.unusedSectionVars false

namespace EoPsi

variable {p : Nat} {α β γ δ : Type}

/-- `x` does what `y` does (results related by `R`), and otherwise only adds to the terminal. -/
def Simulates (R : α → β → Prop) (x : N p α) (y : M p β) : Prop := ∀ w τ, τ.Wf →
  (match x w τ, y w with
    | .ok a w1 _, .ok b w2 => w1 = w2 ∧ R a b
    | .thrown e w1 _, .thrown e' w2 => e = e' ∧ w1 = w2
    | .fault f _, .fault f' => f = f'
    | _, _ => False) ∧ (x w τ).term.Wf ∧ τ.Le (x w τ).term

namespace Simulates

theorem of_erases {x : N p α} {y : M p α} (h : Erases x y) : Simulates Eq x y := by
  intro w τ hτ
  obtain ⟨h1, h2⟩ := h w τ hτ
  refine ⟨?_, h2⟩
  rw [← h1]
  cases x w τ <;> simp [Seen.erase]

theorem to_erases {x : N p α} {y : M p α} (h : Simulates Eq x y) : Erases x y := by
  intro w τ hτ
  obtain ⟨h1, h2⟩ := h w τ hτ
  refine ⟨?_, h2⟩
  cases hx : x w τ <;> cases hy : y w <;> rw [hx, hy] at h1 <;> simp only at h1
  · obtain ⟨rfl, rfl⟩ := h1; rfl
  · obtain ⟨rfl, rfl⟩ := h1; rfl
  · subst h1; rfl

theorem bind {R : α → β → Prop} {S : γ → δ → Prop} {x : N p α} {y : M p β} {f : α → N p γ} {g : β → M p δ} (h : Simulates R x y)
    (hf : ∀ a b, R a b → Simulates S (f a) (g b)) : Simulates S (x >>= f) (y >>= g) := by
  intro w τ hτ
  obtain ⟨h1, h2, h3⟩ := h w τ hτ
  rw [N.run_bind, M.run_bind]
  cases hx : x w τ <;> cases hy : y w <;> rw [hx, hy] at h1 <;> rw [hx] at h2 h3 <;> simp only at h1
  · obtain ⟨rfl, hR⟩ := h1
    obtain ⟨g1, g2, g3⟩ := hf _ _ hR _ _ h2
    exact ⟨g1, g2, h3.trans g3⟩
  · exact ⟨h1, h2, h3⟩
  · exact ⟨h1, h2, h3⟩

theorem lift_bind {S : γ → δ → Prop} (y : M p β) {f : β → N p γ} {g : β → M p δ} (hf : ∀ b, Simulates S (f b) (g b)) : Simulates S (N.lift y >>= f) (y >>= g) :=
  bind (of_erases (.lift y)) fun a b h => by subst h; exact hf a

theorem bind' {S : γ → δ → Prop} {x : N p β} {y : M p β} (h : Erases x y) {f : β → N p γ} {g : β → M p δ} (hf : ∀ b, Simulates S (f b) (g b)) :
    Simulates S (x >>= f) (y >>= g) := bind (of_erases h) fun a b h => by subst h; exact hf a

theorem skip {Q : α → Prop} {S : γ → δ → Prop} {x : N p α} {f : α → N p γ} {y : M p δ}
    (h : ∀ w τ, τ.Wf → ∃ a τ', x w τ = .ok a w τ' ∧ Q a ∧ τ'.Wf ∧ τ.Le τ') (hf : ∀ a, Q a → Simulates S (f a) y) : Simulates S (x >>= f) y := by
  intro w τ hτ
  obtain ⟨a, τ', e, hQ, h2, h3⟩ := h w τ hτ
  rw [N.run_bind, e]
  obtain ⟨g1, g2, g3⟩ := hf a hQ w τ' h2
  exact ⟨g1, g2, h3.trans g3⟩

theorem skip' {S : γ → δ → Prop} {x : N p α} {f : α → N p γ} {y : M p δ} (h : Erases.Silent x) (hf : ∀ a, Simulates S (f a) y) : Simulates S (x >>= f) y :=
  skip (Q := fun _ => True) (fun w τ hτ => by obtain ⟨a, τ', e, h2, h3⟩ := h w τ hτ; exact ⟨a, τ', e, trivial, h2, h3⟩) fun a _ => hf a

theorem ret {R : α → β → Prop} {a : α} {b : β} (h : R a b) : Simulates (p := p) R (Pure.pure a) (Pure.pure b) := fun _ τ hτ => ⟨⟨rfl, h⟩, hτ, .refl τ⟩

theorem val {S : γ → δ → Prop} {x : C α} (hx : ∃ a, x = .ok a) {f : α → N p γ} {y : M p δ} (hf : ∀ a, Simulates S (f a) y) : Simulates S (N.value x >>= f) y := by
  obtain ⟨a, rfl⟩ := hx
  exact fun w τ hτ => hf a w τ hτ

theorem emit {S : γ → δ → Prop} (l : Line p) {f : Unit → N p γ} {y : M p δ} (hf : Simulates S (f ()) y) : Simulates S (N.emit l >>= f) y :=
  skip' (Erases.emit l) fun _ => hf

end Simulates

/-! ## The chronometer of `main` -/

/-- The `i`-th call of the chronometer of `main`. -/
def simCall : Nat → Bench.Call
  | 0 => .start
  | 1 => .step "min-cap"
  | 2 => .step "set-A"
  | 3 => .step "set-B"
  | 4 => .step ""
  | 5 => .step "add-n-blind-A"
  | 6 => .step "add-n-blind-B"
  | 7 => .step "eopsi-begin"
  | 8 => .step "outsourcing"
  | 9 => .step ""
  | 10 => .step "plain-cap"
  | 11 => .step "comp-req"
  | 12 => .step "the-end"
  | _ => .stop "check-result"

/-- The first `n` calls, at the times `x`. -/
def simCalls (x : Nat → Int) (n : Nat) : List (Bench.Call × Int) := (List.range n).map (fun i => (simCall i, x i))

theorem simCalls_succ (x : Nat → Int) (n : Nat) : simCalls x (n + 1) = simCalls x n ++ [(simCall n, x n)] := by
  unfold simCalls
  rw [List.range_succ, List.map_append]
  rfl

/-- The chronometer after `n` calls. -/
def Timed (n : Nat) (b : Bench) : Prop := ∃ x, b = bmAfter (simCalls x n)

theorem bmAfter_call {cs : List (Bench.Call × Int)} (c : Bench.Call) (t : Int) : (bmAfter cs).call t c = .ok (bmAfter (cs ++ [(c, t)])) := by
  have h1 := bmAfter_run (cs ++ [(c, t)])
  rw [bench_run_append, bmAfter_run cs, ok_bind, Bench.run] at h1
  obtain ⟨b, hb, h2⟩ := bind_eq_ok h1
  obtain rfl := Except.ok.inj h2
  exact hb

theorem simCalls_congr {x y : Nat → Int} {n : Nat} (h : ∀ i, i < n → x i = y i) : simCalls x n = simCalls y n := by
  unfold simCalls
  apply List.map_congr_left
  intro i hi
  rw [h i (List.mem_range.1 hi)]

theorem Simulates.loc {S : γ → δ → Prop} {clock : Nat → Int} (n : Nat) {b : Bench} (hb : Timed n b) {c : Bench.Call} (hc : c = simCall n) {f : Bench → N p γ} {y : M p δ}
    (hf : ∀ b, Timed (n + 1) b → Simulates S (f b) y) : Simulates S (N.local clock b c >>= f) y := by
  refine skip (Q := Timed (n + 1)) (fun w τ hτ => ?_) hf
  obtain ⟨x, rfl⟩ := hb
  subst hc
  refine ⟨bmAfter (simCalls x n ++ [(simCall n, clock τ.ticks)]), { τ with ticks := τ.ticks + 1 }, ?_, ⟨Function.update x n (clock τ.ticks), ?_⟩, hτ, Nat.le_succ _, List.prefix_rfl⟩
  · unfold N.local
    rw [bmAfter_call]
  · rw [simCalls_succ, Function.update_self, simCalls_congr (x := Function.update x n (clock τ.ticks)) (y := x) fun i hi => Function.update_of_ne (by omega) _ _]

theorem after_benchmark {cs : List (Bench.Call × Int)} {l : List Chrono.Reading} (hl : (Chrono.after cs).log = l) {name : String} (hn : name ≠ "") {i : Nat}
    (h : ∃ r, l[i + 1]? = some r ∧ r.name = name) (h' : name ∉ (l.drop (i + 1 + 1)).map (fun r => r.name)) {d : Int} {q : Bool} (hd : (Chrono.intervals l)[i]? = some (d, q)) :
    (bmAfter cs).benchmarkAt name = .ok d := by
  subst hl
  obtain ⟨b1, g1, -, g2⟩ := C49_named cs name hn (i + 1) (Cli.last_named _ _ _ h h') true
  obtain ⟨b2, g3, -, -, -, g4⟩ := C53_benchmark cs (i + 1)
  rw [bmAfter_run] at g1 g3
  obtain rfl := Except.ok.inj g1
  obtain rfl := Except.ok.inj g3
  rw [g2]
  exact g4 _ q (by omega) hd

theorem after_cumulative {cs : List (Bench.Call × Int)} {l : List Chrono.Reading} (hl : (Chrono.after cs).log = l) {name : String} (hn : name ≠ "") {i : Nat}
    (h : ∃ r, l[i + 1]? = some r ∧ r.name = name) (h' : name ∉ (l.drop (i + 1 + 1)).map (fun r => r.name)) :
    (bmAfter cs).cumulativeAt name true = .ok (Chrono.running ((Chrono.intervals l).take (i + 1))).sum := by
  subst hl
  obtain ⟨b1, g1, g2, -⟩ := C49_named cs name hn (i + 1) (Cli.last_named _ _ _ h h') true
  obtain ⟨r, hr, -⟩ := h
  obtain ⟨b2, g3, g4⟩ := C49_running_time_to cs (i + 1) (by omega) (List.getElem?_eq_some_iff.1 hr).1
  rw [bmAfter_run] at g1 g3
  obtain rfl := Except.ok.inj g1
  obtain rfl := Except.ok.inj g3
  rw [g2, g4]

section Values
variable (x : Nat → Int)

/-- the readings after 4 calls -/
def simLog4 : List Chrono.Reading := [⟨x 0, false, ""⟩, ⟨x 1, false, "min-cap"⟩, ⟨x 2, false, "set-A"⟩, ⟨x 3, false, "set-B"⟩]
theorem simLog4_eq : (Chrono.after (simCalls x 4)).log = simLog4 x := by
  have e : simCalls x 4 = [(simCall 0, x 0), (simCall 1, x 1), (simCall 2, x 2), (simCall 3, x 3)] := rfl
  rw [e]; rfl

/-- the readings after 7 calls -/
def simLog7 : List Chrono.Reading := [⟨x 0, false, ""⟩, ⟨x 1, false, "min-cap"⟩, ⟨x 2, false, "set-A"⟩, ⟨x 3, false, "set-B"⟩, ⟨x 4, false, ""⟩, ⟨x 5, false, "add-n-blind-A"⟩, ⟨x 6, false, "add-n-blind-B"⟩]
theorem simLog7_eq : (Chrono.after (simCalls x 7)).log = simLog7 x := by
  have e : simCalls x 7 = [(simCall 0, x 0), (simCall 1, x 1), (simCall 2, x 2), (simCall 3, x 3), (simCall 4, x 4), (simCall 5, x 5), (simCall 6, x 6)] := rfl
  rw [e]; rfl

/-- the readings after 9 calls -/
def simLog9 : List Chrono.Reading := [⟨x 0, false, ""⟩, ⟨x 1, false, "min-cap"⟩, ⟨x 2, false, "set-A"⟩, ⟨x 3, false, "set-B"⟩, ⟨x 4, false, ""⟩, ⟨x 5, false, "add-n-blind-A"⟩, ⟨x 6, false, "add-n-blind-B"⟩, ⟨x 7, false, "eopsi-begin"⟩, ⟨x 8, false, "outsourcing"⟩]
theorem simLog9_eq : (Chrono.after (simCalls x 9)).log = simLog9 x := by
  have e : simCalls x 9 = [(simCall 0, x 0), (simCall 1, x 1), (simCall 2, x 2), (simCall 3, x 3), (simCall 4, x 4), (simCall 5, x 5), (simCall 6, x 6), (simCall 7, x 7), (simCall 8, x 8)] := rfl
  rw [e]; rfl

/-- the readings after 12 calls -/
def simLog12 : List Chrono.Reading := [⟨x 0, false, ""⟩, ⟨x 1, false, "min-cap"⟩, ⟨x 2, false, "set-A"⟩, ⟨x 3, false, "set-B"⟩, ⟨x 4, false, ""⟩, ⟨x 5, false, "add-n-blind-A"⟩, ⟨x 6, false, "add-n-blind-B"⟩, ⟨x 7, false, "eopsi-begin"⟩, ⟨x 8, false, "outsourcing"⟩, ⟨x 9, false, ""⟩, ⟨x 10, false, "plain-cap"⟩, ⟨x 11, false, "comp-req"⟩]
theorem simLog12_eq : (Chrono.after (simCalls x 12)).log = simLog12 x := by
  have e : simCalls x 12 = [(simCall 0, x 0), (simCall 1, x 1), (simCall 2, x 2), (simCall 3, x 3), (simCall 4, x 4), (simCall 5, x 5), (simCall 6, x 6), (simCall 7, x 7), (simCall 8, x 8), (simCall 9, x 9), (simCall 10, x 10), (simCall 11, x 11)] := rfl
  rw [e]; rfl

/-- the readings after 14 calls -/
def simLog14 : List Chrono.Reading := [⟨x 0, false, ""⟩, ⟨x 1, false, "min-cap"⟩, ⟨x 2, false, "set-A"⟩, ⟨x 3, false, "set-B"⟩, ⟨x 4, false, ""⟩, ⟨x 5, false, "add-n-blind-A"⟩, ⟨x 6, false, "add-n-blind-B"⟩, ⟨x 7, false, "eopsi-begin"⟩, ⟨x 8, false, "outsourcing"⟩, ⟨x 9, false, ""⟩, ⟨x 10, false, "plain-cap"⟩, ⟨x 11, false, "comp-req"⟩, ⟨x 12, false, "the-end"⟩, ⟨x 13, false, "check-result"⟩]
theorem simLog14_eq : (Chrono.after (simCalls x 14)).log = simLog14 x := by
  have e : simCalls x 14 = [(simCall 0, x 0), (simCall 1, x 1), (simCall 2, x 2), (simCall 3, x 3), (simCall 4, x 4), (simCall 5, x 5), (simCall 6, x 6), (simCall 7, x 7), (simCall 8, x 8), (simCall 9, x 9), (simCall 10, x 10), (simCall 11, x 11), (simCall 12, x 12), (simCall 13, x 13)] := rfl
  rw [e]; rfl

theorem sim_min : (bmAfter (simCalls x 4)).benchmarkAt "min-cap" = .ok (micro (x 0) (x 1)) :=
  after_benchmark (i := 0) (q := true) (simLog4_eq x) (by simp) ⟨⟨x 1, false, "min-cap"⟩, rfl, rfl⟩ (by simp [simLog4]) rfl
theorem sim_A : (bmAfter (simCalls x 4)).benchmarkAt "set-A" = .ok (micro (x 1) (x 2)) :=
  after_benchmark (i := 1) (q := true) (simLog4_eq x) (by simp) ⟨⟨x 2, false, "set-A"⟩, rfl, rfl⟩ (by simp [simLog4]) rfl
theorem sim_B : (bmAfter (simCalls x 4)).benchmarkAt "set-B" = .ok (micro (x 2) (x 3)) :=
  after_benchmark (i := 2) (q := true) (simLog4_eq x) (by simp) ⟨⟨x 3, false, "set-B"⟩, rfl, rfl⟩ (by simp [simLog4]) rfl
theorem sim_blindA : (bmAfter (simCalls x 7)).benchmarkAt "add-n-blind-A" = .ok (micro (x 4) (x 5)) :=
  after_benchmark (i := 4) (q := true) (simLog7_eq x) (by simp) ⟨⟨x 5, false, "add-n-blind-A"⟩, rfl, rfl⟩ (by simp [simLog7]) rfl
theorem sim_blindB : (bmAfter (simCalls x 7)).benchmarkAt "add-n-blind-B" = .ok (micro (x 5) (x 6)) :=
  after_benchmark (i := 5) (q := true) (simLog7_eq x) (by simp) ⟨⟨x 6, false, "add-n-blind-B"⟩, rfl, rfl⟩ (by simp [simLog7]) rfl
theorem sim_out : (bmAfter (simCalls x 9)).benchmarkAt "outsourcing" = .ok (micro (x 7) (x 8)) :=
  after_benchmark (i := 7) (q := true) (simLog9_eq x) (by simp) ⟨⟨x 8, false, "outsourcing"⟩, rfl, rfl⟩ (by simp [simLog9]) rfl
theorem sim_req : (bmAfter (simCalls x 12)).benchmarkAt "comp-req" = .ok (micro (x 10) (x 11)) :=
  after_benchmark (i := 10) (q := true) (simLog12_eq x) (by simp) ⟨⟨x 11, false, "comp-req"⟩, rfl, rfl⟩ (by simp [simLog12]) rfl
theorem sim_plain : (bmAfter (simCalls x 14)).benchmarkAt "plain-cap" = .ok (micro (x 9) (x 10)) :=
  after_benchmark (i := 9) (q := true) (simLog14_eq x) (by simp) ⟨⟨x 10, false, "plain-cap"⟩, rfl, rfl⟩ (by simp [simLog14]) rfl
theorem sim_check : (bmAfter (simCalls x 14)).benchmarkAt "check-result" = .ok (micro (x 12) (x 13)) :=
  after_benchmark (i := 12) (q := true) (simLog14_eq x) (by simp) ⟨⟨x 13, false, "check-result"⟩, rfl, rfl⟩ (by simp [simLog14]) rfl
theorem sim_begin : (bmAfter (simCalls x 14)).cumulativeAt "eopsi-begin" true = .ok ([micro (x 0) (x 1), micro (x 1) (x 2), micro (x 2) (x 3), micro (x 3) (x 4), micro (x 4) (x 5), micro (x 5) (x 6), micro (x 6) (x 7)] : List Int).sum :=
  after_cumulative (i := 6) (simLog14_eq x) (by simp) ⟨⟨x 7, false, "eopsi-begin"⟩, rfl, rfl⟩ (by simp [simLog14])
theorem sim_end : (bmAfter (simCalls x 14)).cumulativeAt "the-end" true = .ok ([micro (x 0) (x 1), micro (x 1) (x 2), micro (x 2) (x 3), micro (x 3) (x 4), micro (x 4) (x 5), micro (x 5) (x 6), micro (x 6) (x 7), micro (x 7) (x 8), micro (x 8) (x 9), micro (x 9) (x 10), micro (x 10) (x 11), micro (x 11) (x 12)] : List Int).sum :=
  after_cumulative (i := 11) (simLog14_eq x) (by simp) ⟨⟨x 12, false, "the-end"⟩, rfl, rfl⟩ (by simp [simLog14])

end Values

/-! ## Erasure -/

section Erasure
variable [Fact p.Prime] (clock : Nat → Int) (D : Digest) (F : Factoring p) (hw : Nat)

theorem outsourcing_simulates (bits : Nat) (la lb : List Int) {bm : Bench} (hb : Timed 4 bm) :
    Simulates (fun b _ => Timed 9 b) (Simul.Console.outsourcing clock D F hw bits la lb bm) (Simul.outsourcing D F hw bits la lb) := by
  unfold Simul.Console.outsourcing Simul.outsourcing
  refine .lift_bind _ fun _ => .lift_bind _ fun _ => .lift_bind _ fun A => .lift_bind _ fun _ => .lift_bind _ fun B => .lift_bind _ fun _ => ?_
  refine .loc 4 hb rfl fun bm hb => .bind' (setRawData_erases D hw _ _ _ _) fun _ => ?_
  refine .loc 5 hb rfl fun bm hb => .bind' (setRawData_erases D hw _ _ _ _) fun _ => ?_
  refine .loc 6 hb rfl fun bm hb => ?_
  refine .val (by obtain ⟨x, rfl⟩ := hb; exact ⟨_, sim_blindA x⟩) fun t => .emit _ ?_
  refine .val (by obtain ⟨x, rfl⟩ := hb; exact ⟨_, sim_blindB x⟩) fun t => .emit _ ?_
  refine .lift_bind _ fun _ => .lift_bind _ fun _ => .lift_bind _ fun A => .lift_bind _ fun _ => ?_
  refine .loc 7 hb rfl fun bm hb => ?_
  have hc : Erases (N.catchP (do
      EoPsi.Console.send clock D F 1 0 (some (.user 0))
      EoPsi.Console.send clock D F 2 0 (some (.user 1))) (fun _ => N.lift (M.fail (.exit 2)))) (M.catchP (do
      EoPsi.send D F 1 0 (some (.user 0))
      EoPsi.send D F 2 0 (some (.user 1))) (fun _ => M.fail (.exit 2))) :=
    .catchP (.bind (send_erases clock D F 1 0 _) fun _ => send_erases clock D F 2 0 _) fun _ => .lift _
  intro w τ hτ
  obtain ⟨h1, h2, h3⟩ := hc w τ hτ
  rw [N.run_bind]
  generalize N.catchP (do
      EoPsi.Console.send clock D F 1 0 (some (.user 0))
      EoPsi.Console.send clock D F 2 0 (some (.user 1))) (fun _ => N.lift (M.fail (.exit 2))) w τ = r at h1 h2 h3
  rw [← h1]
  cases r with
  | thrown e w1 τ1 => exact ⟨⟨rfl, rfl⟩, h2, h3⟩
  | fault f τ1 => exact ⟨rfl, h2, h3⟩
  | ok a w1 τ1 =>
    have : Simulates (fun b (_ : Unit) => Timed 9 b) (do
        let bm ← N.local clock bm (.step "outsourcing")
        let t ← N.value (bm.benchmarkAt "outsourcing")
        N.emit (.outsourcingTime t)
        pure bm) (pure () : M p Unit) :=
      .loc 8 hb rfl fun bm hb => .val (by obtain ⟨x, rfl⟩ := hb; exact ⟨_, sim_out x⟩) fun t => .emit _ (.ret hb)
    obtain ⟨g1, g2, g3⟩ := this w1 τ1 h2
    refine ⟨?_, g2, h3.trans g3⟩
    cases a
    exact g1

theorem request_simulates {bm : Bench} (hb : Timed 11 bm) :
    Simulates (fun a b => a.1 = b ∧ Timed 13 a.2) (Simul.Console.request clock D F bm) (Simul.request D F) := by
  unfold Simul.Console.request Simul.request
  refine .lift_bind _ fun _ => .lift_bind _ fun B => .lift_bind _ fun _ => .lift_bind _ fun a => .lift_bind _ fun _ => ?_
  refine .skip' (Erases.idOf _) fun bob => .skip' (Erases.idOf _) fun alice => .emit _ ?_
  refine .loc 11 hb rfl fun bm hb => .val (by obtain ⟨x, rfl⟩ := hb; exact ⟨_, sim_req x⟩) fun t => .emit _ ?_
  refine .bind' (.catchP (send_erases clock D F 2 1 _) fun _ => .lift _) fun _ => ?_
  exact .loc 12 hb rfl fun bm hb => .ret ⟨rfl, hb⟩

theorem rest_simulates (qsort : (Int → Int → Int) → List Int → List Int) (prm : Simul.Params) :
    Simulates Eq (Simul.Console.rest clock D F hw qsort prm) (Simul.rest D F hw qsort prm) := by
  unfold Simul.Console.rest Simul.rest
  refine .loc 0 ⟨fun _ => 0, rfl⟩ rfl fun bm hb => .lift_bind _ fun c => ?_
  refine .loc 1 hb rfl fun bm hb => .lift_bind _ fun a => .lift_bind _ fun la => ?_
  refine .loc 2 hb rfl fun bm hb => .lift_bind _ fun b => .lift_bind _ fun lb => ?_
  refine .loc 3 hb rfl fun bm hb => ?_
  refine .val (by obtain ⟨x, rfl⟩ := hb; exact ⟨_, sim_min x⟩) fun t => .emit _ ?_
  refine .val (by obtain ⟨x, rfl⟩ := hb; exact ⟨_, sim_A x⟩) fun t => .emit _ ?_
  refine .val (by obtain ⟨x, rfl⟩ := hb; exact ⟨_, sim_B x⟩) fun t => .emit _ ?_
  refine .bind (outsourcing_simulates clock D F hw _ la lb hb) fun bm _ hb => ?_
  refine .loc 9 hb rfl fun bm hb => .lift_bind _ fun cap => ?_
  refine .loc 10 hb rfl fun bm hb => .emit _ ?_
  refine .bind (request_simulates clock D F hb) fun x data hx => ?_
  obtain ⟨d', bm⟩ := x
  obtain ⟨rfl, hb⟩ := hx
  refine .lift_bind _ fun B => .lift_bind _ fun v => .emit _ ?_
  refine .loc 13 hb rfl fun bm hb => ?_
  refine .val (by obtain ⟨x, rfl⟩ := hb; exact ⟨_, sim_plain x⟩) fun t => .emit _ ?_
  refine .val (by obtain ⟨x, rfl⟩ := hb; exact ⟨_, sim_end x⟩) fun t => ?_
  refine .val (by obtain ⟨x, rfl⟩ := hb; exact ⟨_, sim_begin x⟩) fun t => .emit _ ?_
  refine .val (by obtain ⟨x, rfl⟩ := hb; exact ⟨_, sim_check x⟩) fun t => .emit _ ?_
  exact .lift_bind _ fun _ => .ret rfl

theorem main_simulates (alg : HashAlg (ZMod p)) (qsort : (Int → Int → Int) → List Int → List Int) (prm : Simul.Params) :
    Erases (Simul.Console.main clock D F hw alg qsort prm) (Simul.main D F hw alg qsort prm) := by
  unfold Simul.Console.main Simul.main
  refine .ite (.lift _) (.ite (.lift _) (Simulates.to_erases ?_))
  refine .lift_bind _ fun _ => .lift_bind _ fun _ => .lift_bind _ fun _ => .emit _ (.emit _ ?_)
  exact .lift_bind _ fun _ => .lift_bind _ fun _ => rest_simulates clock D F hw qsort prm

end Erasure

end EoPsi
