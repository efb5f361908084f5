import Verif.Lemmas.Cli
import Verif.Props.SimulMain

set_option linter.unusedSectionVars false
set_option linter.unusedVariables false

/-! # C104: the command lines of the programs in `src/test` -/

namespace EoPsi.Cli

/-! ## The effect of an accepted option -/

def Sim.upd (s : Sim) (e : Event) : Sim :=
  { b := if e.1 = 'b' then toSizeT (atol e.2) else s.b
    j := if e.1 = 'j' then toUnsigned (atol e.2) else s.j
    k := if e.1 = 'k' then toSizeT (atol e.2) else s.k
    l := if e.1 = 'l' then toSizeT (atol e.2) else s.l
    n := if e.1 = 'n' then toSizeT (atol e.2) else s.n
    p := if e.1 = 'p' then toSizeT (atol e.2) else s.p
    r := if e.1 = 'r' then toSizeT (atol e.2) else s.r }

def oneAlg (a : Str) : Option Alg :=
  if a = "MH3".toList then some Alg.murmur else if a = "SHA1".toList then some Alg.sha1 else if a = "SHA256".toList then some Alg.sha256 else none

def Hb.upd (s : Hb) (e : Event) : Hb :=
  { alg := if e.1 = 'a' then (oneAlg e.2).or s.alg else s.alg
    k := if e.1 = 'k' then toSizeT (atol e.2) else s.k
    l := if e.1 = 'l' then toSizeT (atol e.2) else s.l
    file := if e.1 = 'i' then e.2 else s.file }

def Bp.upd (s : Bp) (e : Event) : Bp :=
  { alg := if e.1 = 'a' then (oneAlg e.2).or s.alg else s.alg
    j := if e.1 = 'j' then toUnsigned (atol e.2) else s.j
    k := if e.1 = 'k' then toSizeT (atol e.2) else s.k
    l := if e.1 = 'l' then toSizeT (atol e.2) else s.l
    file := if e.1 = 'i' then e.2 else s.file
    p := if e.1 = 'p' then toSizeT (atol e.2) else s.p }

def Pf.upd (s : Pf) (e : Event) : Pf :=
  { b := if e.1 = 'b' then toSizeT (atol e.2) else s.b
    d := if e.1 = 'd' then toSizeT (atol e.2) else s.d
    n := if e.1 = 'n' then toSizeT (atol e.2) else s.n
    quiet := if e.1 = 'q' then true else s.quiet }

def Rg.upd (s : Rg) (e : Event) : Rg :=
  { b := if e.1 = 'b' then toSizeT (atol e.2) else s.b
    n := if e.1 = 'n' then toSizeT (atol e.2) else s.n
    file := if e.1 = 'o' then e.2 else s.file }

noncomputable def Ch.upd (atof : Str → Real) (s : Ch) (e : Event) : Ch :=
  { l := if e.1 = 'l' then toSizeT (atol e.2) else s.l
    n := if e.1 = 'n' then toSizeT (atol e.2) else s.n
    p := if e.1 = 'p' then atof e.2 else s.p
    quiet := if e.1 = 'q' then true else s.quiet }

theorem badOption_eq {σ : Type} (argc : Nat) :
    (badOption argc : C σ) = .error (if argc < 63 then .ub .outOfBounds else if argc = 63 then .ub .nullDeref else .exit 1) := by
  unfold badOption
  split
  · rfl
  · split <;> rfl

theorem Sim.handle_ok (argc : Nat) (s : Sim) (e : Event) (h : Accepts ['b', 'k', 'l', 'n', 'p'] ['j', 'r'] [] e) : Sim.handle argc s e = .ok (Sim.upd s e) := by
  obtain ⟨c, a⟩ := e
  simp only [Accepts, List.mem_cons, List.not_mem_nil, or_false] at h
  rcases h with ⟨rfl | rfl | rfl | rfl | rfl, ha⟩ | ⟨rfl | rfl, ha⟩
  all_goals simp only [Sim.handle]; first | rw [if_neg (by omega)] | skip
  all_goals simp [Sim.upd]

theorem Sim.handle_bad (argc : Nat) (s : Sim) (e : Event) (h : ¬ Accepts ['b', 'k', 'l', 'n', 'p'] ['j', 'r'] [] e) :
    Sim.handle argc s e = .error (Tool.refusal argc e .eopsisimul) := by
  unfold Sim.handle Tool.refusal
  simp only [Accepts, List.mem_cons, List.not_mem_nil, or_false] at h
  split
  all_goals first
    | (rw [if_pos (by by_contra hh; exact h (by simp; omega))]; simp)
    | (rw [badOption_eq]; simp)
    | (rename_i hq; rw [if_neg (fun hc => hq e.2 (Prod.ext hc rfl))]; done)
    | (rename_i hq; dsimp only; rw [if_neg (fun hc => hq e.2 (Prod.ext hc rfl))])

theorem algorithm_ok {a : Str} (h : a ≠ "SHA512".toList) (o : Option Alg) : algorithm a o = .ok ((oneAlg a).or o) := by
  unfold algorithm oneAlg
  split
  · rfl
  · split
    · rfl
    · split
      · rfl
      · first | rfl | (rw [if_neg h]; rfl)

theorem algorithm_bad (o : Option Alg) : algorithm "SHA512".toList o = .error (.exit 2) := by
  unfold algorithm
  rw [if_neg (by decide), if_neg (by decide), if_neg (by decide), if_pos rfl]

theorem Hb.handle_ok (argc : Nat) (s : Hb) (e : Event) (h : Accepts [] [] ['a', 'i', 'k', 'l'] e ∧ Implemented e) : Hb.handle argc s e = .ok (Hb.upd s e) := by
  obtain ⟨c, a⟩ := e
  obtain ⟨h, hi⟩ := h
  simp only [Accepts, List.mem_cons, List.not_mem_nil, or_false, false_and, false_or] at h
  rcases h with rfl | rfl | rfl | rfl
  · simp only [Hb.handle]
    rw [algorithm_ok (fun hc => hi ⟨rfl, hc⟩), ok_bind]
    simp [Hb.upd]
  all_goals simp [Hb.handle, Hb.upd]

theorem Hb.handle_bad (argc : Nat) (s : Hb) (e : Event) (h : ¬ (Accepts [] [] ['a', 'i', 'k', 'l'] e ∧ Implemented e)) :
    Hb.handle argc s e = .error (Tool.refusal argc e .hbtest) := by
  unfold Hb.handle Tool.refusal
  simp only [Accepts, List.mem_cons, List.not_mem_nil, or_false, false_and, false_or] at h
  split
  · rename_i a
    have ha : a = "SHA512".toList := by
      by_contra hc
      exact h ⟨by simp, fun hx => hc hx.2⟩
    rw [ha, algorithm_bad, if_neg (by decide : ¬ ('a' = '?')), if_pos rfl]
    rfl
  · exact absurd ⟨by simp, by simp [Implemented]⟩ h
  · exact absurd ⟨by simp, by simp [Implemented]⟩ h
  · exact absurd ⟨by simp, by simp [Implemented]⟩ h
  · rw [badOption_eq]; simp
  · rename_i ha _ _ _ hq
    rw [if_neg (fun hc => hq e.2 (Prod.ext hc rfl)), if_neg (fun hc => ha e.2 (Prod.ext hc rfl))]

theorem Bp.handle_ok (argc : Nat) (s : Bp) (e : Event) (h : Accepts ['k', 'l', 'p'] ['j'] ['a', 'i'] e ∧ Implemented e) : Bp.handle argc s e = .ok (Bp.upd s e) := by
  obtain ⟨c, a⟩ := e
  obtain ⟨h, hi⟩ := h
  simp only [Accepts, List.mem_cons, List.not_mem_nil, or_false] at h
  rcases h with ⟨rfl | rfl | rfl, ha⟩ | ⟨rfl, ha⟩ | rfl | rfl
  rotate_left 4
  · simp only [Bp.handle]
    rw [algorithm_ok (fun hc => hi ⟨rfl, hc⟩), ok_bind]
    simp [Bp.upd]
  all_goals simp only [Bp.handle]; first | rw [if_neg (by omega)] | skip
  all_goals simp [Bp.upd]

theorem Bp.handle_bad (argc : Nat) (s : Bp) (e : Event) (h : ¬ (Accepts ['k', 'l', 'p'] ['j'] ['a', 'i'] e ∧ Implemented e)) :
    Bp.handle argc s e = .error (Tool.refusal argc e .bptest) := by
  unfold Bp.handle Tool.refusal
  simp only [Accepts, List.mem_cons, List.not_mem_nil, or_false] at h
  split
  · rename_i a
    have ha : a = "SHA512".toList := by
      by_contra hc
      exact h ⟨by simp, fun hx => hc hx.2⟩
    rw [ha, algorithm_bad, if_neg (by decide : ¬ ('a' = '?')), if_pos rfl]
    rfl
  all_goals first
    | (rw [if_pos (by by_contra hh; exact h ⟨by simp; omega, by simp [Implemented]⟩)]; simp)
    | (rw [badOption_eq]; simp)
    | exact absurd ⟨by simp, by simp [Implemented]⟩ h
    | (rename_i ha _ _ _ _ _ hq; rw [if_neg (fun hc => hq e.2 (Prod.ext hc rfl)), if_neg (fun hc => ha e.2 (Prod.ext hc rfl))])

theorem Pf.handle_ok (argc : Nat) (s : Pf) (e : Event) (h : Accepts ['b', 'n'] ['d'] ['q'] e) : Pf.handle argc s e = .ok (Pf.upd s e) := by
  obtain ⟨c, a⟩ := e
  simp only [Accepts, List.mem_cons, List.not_mem_nil, or_false] at h
  rcases h with ⟨rfl | rfl, ha⟩ | ⟨rfl, ha⟩ | rfl
  all_goals simp only [Pf.handle]; first | rw [if_neg (by omega)] | skip
  all_goals simp [Pf.upd]

theorem Pf.handle_bad (argc : Nat) (s : Pf) (e : Event) (h : ¬ Accepts ['b', 'n'] ['d'] ['q'] e) :
    Pf.handle argc s e = .error (Tool.refusal argc e .polyfact) := by
  unfold Pf.handle Tool.refusal
  simp only [Accepts, List.mem_cons, List.not_mem_nil, or_false] at h
  split
  all_goals first
    | (rw [if_pos (by by_contra hh; exact h (by simp; omega))]; simp)
    | (rw [badOption_eq]; simp)
    | exact absurd (by simp) h
    | (rename_i hq; rw [if_neg (fun hc => hq e.2 (Prod.ext hc rfl))]; done)
    | (rename_i hq; dsimp only; rw [if_neg (fun hc => hq e.2 (Prod.ext hc rfl))])

theorem Rg.handle_ok (argc : Nat) (s : Rg) (e : Event) (h : Accepts ['b'] [] ['n', 'o'] e) : Rg.handle argc s e = .ok (Rg.upd s e) := by
  obtain ⟨c, a⟩ := e
  simp only [Accepts, List.mem_cons, List.not_mem_nil, or_false, false_and, false_or] at h
  rcases h with ⟨rfl, ha⟩ | rfl | rfl
  all_goals simp only [Rg.handle]; first | rw [if_neg (by omega)] | skip
  all_goals simp [Rg.upd]

theorem Rg.handle_bad (argc : Nat) (s : Rg) (e : Event) (h : ¬ Accepts ['b'] [] ['n', 'o'] e) :
    Rg.handle argc s e = .error (Tool.refusal argc e .zzrndgen) := by
  unfold Rg.handle Tool.refusal
  simp only [Accepts, List.mem_cons, List.not_mem_nil, or_false, false_and, false_or] at h
  split
  all_goals first
    | (rw [if_pos (by by_contra hh; exact h (by simp; omega))]; simp)
    | (rw [badOption_eq]; simp)
    | exact absurd (by simp) h
    | (rename_i hq; rw [if_neg (fun hc => hq e.2 (Prod.ext hc rfl))]; done)
    | (rename_i hq; dsimp only; rw [if_neg (fun hc => hq e.2 (Prod.ext hc rfl))])

theorem Ch.handle_ok (atof : Str → Real) (argc : Nat) (s : Ch) (e : Event) (h : Accepts ['l', 'n'] [] ['p', 'q'] e ∧ (e.1 = 'p' → atof e.2 < -(1 / 10000))) :
    Ch.handle atof argc s e = .ok (Ch.upd atof s e) := by
  obtain ⟨c, a⟩ := e
  obtain ⟨h, hp⟩ := h
  simp only [Accepts, List.mem_cons, List.not_mem_nil, or_false, false_and, false_or] at h
  rcases h with ⟨rfl | rfl, ha⟩ | rfl | rfl
  rotate_left 2
  · simp only [Ch.handle]
    rw [if_neg (not_le.2 (hp rfl))]
    simp [Ch.upd]
  all_goals simp only [Ch.handle]; first | rw [if_neg (by omega)] | skip
  all_goals simp [Ch.upd]

theorem Ch.handle_bad (atof : Str → Real) (argc : Nat) (s : Ch) (e : Event) (h : ¬ (Accepts ['l', 'n'] [] ['p', 'q'] e ∧ (e.1 = 'p' → atof e.2 < -(1 / 10000)))) :
    Ch.handle atof argc s e = .error (Tool.refusal argc e .cherpars) := by
  unfold Ch.handle Tool.refusal
  simp only [Accepts, List.mem_cons, List.not_mem_nil, or_false, false_and, false_or] at h
  split
  rotate_left 2
  · rename_i a
    rw [if_pos (by by_contra hh; exact h ⟨by simp, fun _ => not_le.1 hh⟩)]; simp
  all_goals first
    | (rw [if_pos (by by_contra hh; exact h ⟨by simp; omega, by simp⟩)]; simp)
    | (rw [badOption_eq]; simp)
    | exact absurd ⟨by simp, by simp⟩ h
    | (rename_i hq; rw [if_neg (fun hc => hq e.2 (Prod.ext hc rfl))]; done)
    | (rename_i hq; dsimp only; rw [if_neg (fun hc => hq e.2 (Prod.ext hc rfl))])


/-! ## The settings -/

theorem num_field {c : Char} {evs : List Event} {d : Nat} (h : ∀ e ∈ evs, e.1 = c → 0 ≤ atol e.2) :
    ((given c evs).map (fun a => toSizeT (atol a))).getD d = num c d evs := by
  unfold num
  cases hg : given c evs with
  | none => rfl
  | some a => exact toSizeT_atol (h _ (given_mem hg) rfl)

theorem num_field32 {c : Char} {evs : List Event} {d : Nat} (hd : d < 2 ^ 32) (h : ∀ e ∈ evs, e.1 = c → 0 ≤ atol e.2) :
    ((given c evs).map (fun a => toUnsigned (atol a))).getD d = num c d evs % 2 ^ 32 := by
  unfold num
  cases hg : given c evs with
  | none => exact (Nat.mod_eq_of_lt hd).symm
  | some a => exact toUnsigned_atol (h _ (given_mem hg) rfl)

theorem parse_ok {σ : Type} {opts : Str} {handle : Nat → σ → Event → C σ} {ok : Event → Prop} {upd : σ → Event → σ} {init : σ}
    {fault : Nat → Event → Fault}
    (h1 : ∀ argc s e, ok e → handle argc s e = .ok (upd s e)) (h2 : ∀ argc s e, ¬ ok e → handle argc s e = .error (fault argc e)) (args : List Str) (s' : σ) :
    parse opts handle init args = .ok s' ↔ (∀ e ∈ getopt opts args, ok e) ∧ s' = (getopt opts args).foldl upd init :=
  fold_ok (h1 _) (fun s e he => ⟨_, h2 _ s e he⟩) _ _ _

theorem algFold {σ : Type} {upd : σ → Event → σ} (proj : σ → Option Alg) (h : ∀ s e, proj (upd s e) = if e.1 = 'a' then (oneAlg e.2).or (proj s) else proj s)
    (evs : List Event) : ∀ s, proj (evs.foldl upd s) = (namedAlg evs).or (proj s) := by
  induction evs with
  | nil => intro s; rfl
  | cons e evs ih =>
    intro s
    rw [List.foldl_cons, ih, h]
    have hn : ∀ evs, namedAlg evs = ((evs.filter (fun e => e.1 = 'a')).filterMap (fun e => oneAlg e.2)).getLast? := fun _ => rfl
    rw [hn, hn]
    by_cases he : e.1 = 'a'
    · rw [if_pos he, List.filter_cons_of_pos (by simpa using he), List.filterMap_cons]
      cases ho : oneAlg e.2 with
      | none => rfl
      | some b =>
        simp only [List.getLast?_cons, Option.or_some]
        cases (List.filterMap _ _).getLast? <;> rfl
    · rw [if_neg he, List.filter_cons_of_neg (by simpa using he)]

/-- `eopsisimul`: the parameters are the values given last, otherwise the defaults; the program refuses everything else. -/
theorem C104_simulator (args : List Str) (s : Sim) :
    Sim.run args = .ok s ↔
      (∀ e ∈ getopt Sim.opts args, Accepts ['b', 'k', 'l', 'n', 'p'] ['j', 'r'] [] e) ∧
      s.b = num 'b' 32 (getopt Sim.opts args) ∧ s.j = num 'j' 0 (getopt Sim.opts args) % 2 ^ 32 ∧ s.k = num 'k' 10000 (getopt Sim.opts args) ∧
      s.l = num 'l' 30 (getopt Sim.opts args) ∧ s.n = num 'n' 100000 (getopt Sim.opts args) ∧ s.p = num 'p' 113 (getopt Sim.opts args) ∧
      s.r = num 'r' 1 (getopt Sim.opts args) ∧ s.r ≤ s.n ∧ s.b ≤ s.p := by
  have key := parse_ok (opts := Sim.opts) (init := Sim.default) Sim.handle_ok Sim.handle_bad args
  set evs := getopt Sim.opts args with hevs
  have fields : (∀ e ∈ evs, Accepts ['b', 'k', 'l', 'n', 'p'] ['j', 'r'] [] e) → evs.foldl Sim.upd Sim.default =
      ⟨num 'b' 32 evs, num 'j' 0 evs % 2 ^ 32, num 'k' 10000 evs, num 'l' 30 evs, num 'n' 100000 evs, num 'p' 113 evs, num 'r' 1 evs⟩ := by
    intro ha
    have pos : ∀ c, ∀ e ∈ evs, e.1 = c → 0 ≤ atol e.2 := by
      intro c e he _
      rcases ha e he with h | h | h
      · exact le_of_lt h.2
      · exact h.2
      · cases h
    have e1 := fold_field (upd := Sim.upd) Sim.b 'b' (fun a => toSizeT (atol a)) (fun _ _ => rfl) evs Sim.default
    have e2 := fold_field (upd := Sim.upd) Sim.j 'j' (fun a => toUnsigned (atol a)) (fun _ _ => rfl) evs Sim.default
    have e3 := fold_field (upd := Sim.upd) Sim.k 'k' (fun a => toSizeT (atol a)) (fun _ _ => rfl) evs Sim.default
    have e4 := fold_field (upd := Sim.upd) Sim.l 'l' (fun a => toSizeT (atol a)) (fun _ _ => rfl) evs Sim.default
    have e5 := fold_field (upd := Sim.upd) Sim.n 'n' (fun a => toSizeT (atol a)) (fun _ _ => rfl) evs Sim.default
    have e6 := fold_field (upd := Sim.upd) Sim.p 'p' (fun a => toSizeT (atol a)) (fun _ _ => rfl) evs Sim.default
    have e7 := fold_field (upd := Sim.upd) Sim.r 'r' (fun a => toSizeT (atol a)) (fun _ _ => rfl) evs Sim.default
    rw [num_field (pos _)] at e1 e3 e4 e5 e6 e7
    rw [num_field32 (by decide) (pos _)] at e2
    generalize evs.foldl Sim.upd Sim.default = t at e1 e2 e3 e4 e5 e6 e7
    obtain ⟨b, j, k, l, n, p, r⟩ := t
    simp only at e1 e2 e3 e4 e5 e6 e7
    subst e1 e2 e3 e4 e5 e6 e7
    rfl
  unfold Sim.run
  constructor
  · intro h
    obtain ⟨t, ht, h⟩ := bind_eq_ok h
    obtain ⟨ha, rfl⟩ := (key t).1 ht
    split at h
    · cases h
    · split at h
      · cases h
      · rename_i h1 h2
        cases h
        rw [fields ha] at h1 h2 ⊢
        exact ⟨ha, rfl, rfl, rfl, rfl, rfl, rfl, rfl, not_lt.1 h1, not_lt.1 h2⟩
  · rintro ⟨ha, h1, h2, h3, h4, h5, h6, h7, h8, h9⟩
    have hs : s = evs.foldl Sim.upd Sim.default := by
      rw [fields ha, ← h1, ← h2, ← h3, ← h4, ← h5, ← h6, ← h7]
    rw [(key s).2 ⟨ha, hs⟩, ok_bind, if_neg (not_lt.2 h8), if_neg (not_lt.2 h9)]

/-- `hbtest`: nothing but the name `SHA512` is refused; a negative number becomes a very large one. -/
theorem C104_hbtest (args : List Str) (alg : Alg) (k l : Nat) (file : Str) :
    Hb.run args = .ok (alg, k, l, file) ↔
      (∀ e ∈ getopt Hb.opts args, e.1 ∈ ['a', 'i', 'k', 'l'] ∧ ¬ (e.1 = 'a' ∧ e.2 = "SHA512".toList)) ∧
      alg = (namedAlg (getopt Hb.opts args)).getD .murmur ∧ k = wrapped 'k' 10000 (getopt Hb.opts args) ∧ l = wrapped 'l' 140 (getopt Hb.opts args) ∧
      file = (if text 'i' [] (getopt Hb.opts args) = [] then "zz.dat".toList else text 'i' [] (getopt Hb.opts args)) := by
  have key := parse_ok (opts := Hb.opts) (init := Hb.default) Hb.handle_ok Hb.handle_bad args
  set evs := getopt Hb.opts args with hevs
  have e1 := algFold (upd := Hb.upd) Hb.alg (fun _ _ => rfl) evs Hb.default
  have e2 := fold_field (upd := Hb.upd) Hb.k 'k' (fun a => toSizeT (atol a)) (fun _ _ => rfl) evs Hb.default
  have e3 := fold_field (upd := Hb.upd) Hb.l 'l' (fun a => toSizeT (atol a)) (fun _ _ => rfl) evs Hb.default
  have e4 := fold_field (upd := Hb.upd) Hb.file 'i' (fun a => a) (fun _ _ => rfl) evs Hb.default
  have e4' : (evs.foldl Hb.upd Hb.default).file = text 'i' [] evs := by rw [e4]; unfold text; cases given 'i' evs <;> rfl
  have e1' : (evs.foldl Hb.upd Hb.default).alg = namedAlg evs := by rw [e1]; cases namedAlg evs <;> rfl
  have hacc : ∀ e : Event, (Accepts [] [] ['a', 'i', 'k', 'l'] e ∧ Implemented e) ↔ (e.1 ∈ ['a', 'i', 'k', 'l'] ∧ ¬ (e.1 = 'a' ∧ e.2 = "SHA512".toList)) := by
    intro e
    unfold Accepts Implemented
    simp
  unfold Hb.run
  constructor
  · intro h
    obtain ⟨t, ht, h⟩ := bind_eq_ok h
    obtain ⟨ha, rfl⟩ := (key t).1 ht
    cases h
    exact ⟨fun e he => (hacc e).1 (ha e he), by rw [e1'], e2, e3, by rw [e4']⟩
  · rintro ⟨ha, rfl, rfl, rfl, rfl⟩
    rw [(key _).2 ⟨fun e he => (hacc e).2 (ha e he), rfl⟩, ok_bind]
    rw [e1', e4', e2, e3]
    rfl

/-- `bptest` -/
theorem C104_bptest (args : List Str) (s : Bp) :
    Bp.run args = .ok s ↔
      (∀ e ∈ getopt Bp.opts args, Accepts ['k', 'l', 'p'] ['j'] ['a', 'i'] e ∧ ¬ (e.1 = 'a' ∧ e.2 = "SHA512".toList)) ∧
      s.alg = namedAlg (getopt Bp.opts args) ∧ s.j = num 'j' 0 (getopt Bp.opts args) % 2 ^ 32 ∧ s.k = num 'k' 10000 (getopt Bp.opts args) ∧
      s.l = num 'l' 140 (getopt Bp.opts args) ∧ s.file = text 'i' "zz.dat".toList (getopt Bp.opts args) ∧ s.p = num 'p' 113 (getopt Bp.opts args) := by
  have key := parse_ok (opts := Bp.opts) (init := Bp.default) Bp.handle_ok Bp.handle_bad args
  set evs := getopt Bp.opts args with hevs
  have fields : (∀ e ∈ evs, Accepts ['k', 'l', 'p'] ['j'] ['a', 'i'] e ∧ Implemented e) → evs.foldl Bp.upd Bp.default =
      ⟨namedAlg evs, num 'j' 0 evs % 2 ^ 32, num 'k' 10000 evs, num 'l' 140 evs, text 'i' "zz.dat".toList evs, num 'p' 113 evs⟩ := by
    intro ha
    have pos : ∀ c, c ≠ 'a' → c ≠ 'i' → ∀ e ∈ evs, e.1 = c → 0 ≤ atol e.2 := by
      intro c h1 h2 e he hc
      rcases (ha e he).1 with h | h | h
      · exact le_of_lt h.2
      · exact h.2
      · rw [hc] at h
        simp only [List.mem_cons, List.not_mem_nil, or_false] at h
        exact absurd h (not_or.2 ⟨h1, h2⟩)
    have e1 := algFold (upd := Bp.upd) Bp.alg (fun _ _ => rfl) evs Bp.default
    have e1' : (evs.foldl Bp.upd Bp.default).alg = namedAlg evs := by rw [e1]; cases namedAlg evs <;> rfl
    have e2 := fold_field (upd := Bp.upd) Bp.j 'j' (fun a => toUnsigned (atol a)) (fun _ _ => rfl) evs Bp.default
    have e3 := fold_field (upd := Bp.upd) Bp.k 'k' (fun a => toSizeT (atol a)) (fun _ _ => rfl) evs Bp.default
    have e4 := fold_field (upd := Bp.upd) Bp.l 'l' (fun a => toSizeT (atol a)) (fun _ _ => rfl) evs Bp.default
    have e5 := fold_field (upd := Bp.upd) Bp.file 'i' (fun a => a) (fun _ _ => rfl) evs Bp.default
    have e5' : (evs.foldl Bp.upd Bp.default).file = text 'i' "zz.dat".toList evs := by rw [e5]; unfold text; cases given 'i' evs <;> rfl
    have e6 := fold_field (upd := Bp.upd) Bp.p 'p' (fun a => toSizeT (atol a)) (fun _ _ => rfl) evs Bp.default
    rw [num_field (pos _ (by decide) (by decide))] at e3 e4 e6
    rw [num_field32 (by decide) (pos _ (by decide) (by decide))] at e2
    clear e1 e5
    generalize evs.foldl Bp.upd Bp.default = t at e1' e2 e3 e4 e5' e6
    obtain ⟨alg, j, k, l, f, p⟩ := t
    simp only at e1' e2 e3 e4 e5' e6
    subst e1' e2 e3 e4 e5' e6
    rfl
  unfold Bp.run
  rw [key]
  constructor
  · rintro ⟨ha, rfl⟩
    rw [fields ha]
    exact ⟨ha, rfl, rfl, rfl, rfl, rfl, rfl⟩
  · rintro ⟨ha, h1, h2, h3, h4, h5, h6⟩
    refine ⟨ha, ?_⟩
    rw [fields ha, ← h1, ← h2, ← h3, ← h4, ← h5, ← h6]

/-- `polyfact` -/
theorem C104_polyfact (args : List Str) (s : Pf) :
    Pf.run args = .ok s ↔
      (∀ e ∈ getopt Pf.opts args, Accepts ['b', 'n'] ['d'] ['q'] e) ∧
      s.b = num 'b' 128 (getopt Pf.opts args) ∧ s.d = num 'd' 60 (getopt Pf.opts args) ∧ s.n = num 'n' 100 (getopt Pf.opts args) ∧
      (s.quiet = true ↔ ∃ e ∈ getopt Pf.opts args, e.1 = 'q') := by
  have key := parse_ok (opts := Pf.opts) (init := Pf.default) Pf.handle_ok Pf.handle_bad args
  set evs := getopt Pf.opts args with hevs
  have hq : ∀ (evs : List Event) (s : Pf), (evs.foldl Pf.upd s).quiet = true ↔ s.quiet = true ∨ ∃ e ∈ evs, e.1 = 'q' := by
    intro evs
    induction evs with
    | nil => simp
    | cons e evs ih =>
      intro s
      rw [List.foldl_cons, ih]
      by_cases he : e.1 = 'q' <;> simp [Pf.upd, he]
  have fields : (∀ e ∈ evs, Accepts ['b', 'n'] ['d'] ['q'] e) → (evs.foldl Pf.upd Pf.default).b = num 'b' 128 evs ∧
      (evs.foldl Pf.upd Pf.default).d = num 'd' 60 evs ∧ (evs.foldl Pf.upd Pf.default).n = num 'n' 100 evs := by
    intro ha
    have pos : ∀ c, c ≠ 'q' → ∀ e ∈ evs, e.1 = c → 0 ≤ atol e.2 := by
      intro c h1 e he hc
      rcases ha e he with h | h | h
      · exact le_of_lt h.2
      · exact h.2
      · rw [hc] at h
        exact absurd (List.mem_singleton.1 h) h1
    have e1 := fold_field (upd := Pf.upd) Pf.b 'b' (fun a => toSizeT (atol a)) (fun _ _ => rfl) evs Pf.default
    have e2 := fold_field (upd := Pf.upd) Pf.d 'd' (fun a => toSizeT (atol a)) (fun _ _ => rfl) evs Pf.default
    have e3 := fold_field (upd := Pf.upd) Pf.n 'n' (fun a => toSizeT (atol a)) (fun _ _ => rfl) evs Pf.default
    rw [num_field (pos _ (by decide))] at e1 e2 e3
    exact ⟨e1, e2, e3⟩
  unfold Pf.run
  rw [key]
  constructor
  · rintro ⟨ha, rfl⟩
    refine ⟨ha, (fields ha).1, (fields ha).2.1, (fields ha).2.2, ?_⟩
    rw [hq]
    simp [Pf.default]
  · rintro ⟨ha, h1, h2, h3, h4⟩
    refine ⟨ha, ?_⟩
    obtain ⟨g1, g2, g3⟩ := fields ha
    have g4 := hq evs Pf.default
    rw [← h1] at g1
    rw [← h2] at g2
    rw [← h3] at g3
    have g4' : (evs.foldl Pf.upd Pf.default).quiet = s.quiet := by
      rw [Bool.eq_iff_iff, g4, h4]
      simp [Pf.default]
    generalize evs.foldl Pf.upd Pf.default = t at g1 g2 g3 g4'
    obtain ⟨a, b, c, d⟩ := t
    simp only at g1 g2 g3 g4'
    subst g1 g2 g3 g4'
    rfl

/-- `zzrndgen`: the number of numbers is not checked. -/
theorem C104_zzrndgen (args : List Str) (s : Rg) :
    Rg.run args = .ok s ↔
      (∀ e ∈ getopt Rg.opts args, Accepts ['b'] [] ['n', 'o'] e) ∧
      s.b = num 'b' 80 (getopt Rg.opts args) ∧ s.n = wrapped 'n' 1000000 (getopt Rg.opts args) ∧
      s.file = (if text 'o' [] (getopt Rg.opts args) = [] then "zz.dat".toList else text 'o' [] (getopt Rg.opts args)) := by
  have key := parse_ok (opts := Rg.opts) (init := Rg.default) Rg.handle_ok Rg.handle_bad args
  set evs := getopt Rg.opts args with hevs
  have fields : (∀ e ∈ evs, Accepts ['b'] [] ['n', 'o'] e) → evs.foldl Rg.upd Rg.default = ⟨num 'b' 80 evs, wrapped 'n' 1000000 evs, text 'o' [] evs⟩ := by
    intro ha
    have pos : ∀ e ∈ evs, e.1 = 'b' → 0 ≤ atol e.2 := by
      intro e he hc
      rcases ha e he with h | h | h
      · exact le_of_lt h.2
      · exact h.2
      · rw [hc] at h
        exact absurd h (by decide)
    have e1 := fold_field (upd := Rg.upd) Rg.b 'b' (fun a => toSizeT (atol a)) (fun _ _ => rfl) evs Rg.default
    have e2 : _ = wrapped 'n' 1000000 evs := fold_field (upd := Rg.upd) Rg.n 'n' (fun a => toSizeT (atol a)) (fun _ _ => rfl) evs Rg.default
    have e3 := fold_field (upd := Rg.upd) Rg.file 'o' (fun a => a) (fun _ _ => rfl) evs Rg.default
    have e3' : (evs.foldl Rg.upd Rg.default).file = text 'o' [] evs := by rw [e3]; unfold text; cases given 'o' evs <;> rfl
    rw [num_field pos] at e1
    clear e3
    generalize evs.foldl Rg.upd Rg.default = t at e1 e2 e3'
    obtain ⟨a, b, c⟩ := t
    simp only at e1 e2 e3'
    subst e1 e2 e3'
    rfl
  unfold Rg.run
  constructor
  · intro h
    obtain ⟨t, ht, h⟩ := bind_eq_ok h
    obtain ⟨ha, rfl⟩ := (key t).1 ht
    cases h
    rw [fields ha]
    exact ⟨ha, rfl, rfl, rfl⟩
  · rintro ⟨ha, h1, h2, h3⟩
    rw [(key _).2 ⟨ha, rfl⟩, ok_bind, fields ha]
    obtain ⟨a, b, c⟩ := s
    simp only at h1 h2 h3
    subst h1 h2 h3
    rfl

/-- `cherpars`: what is printed is the result of the search for `2^n` elements, `n < 64` having been given; larger exponents, the default among them, do not fit. -/
theorem C104_cherpars (atof : Str → Real) (args : List Str)
    (ha : ∀ e ∈ getopt Ch.opts args, Accepts ['l', 'n'] [] ['p', 'q'] e ∧ (e.1 = 'p' → atof e.2 < -(1 / 10000))) :
    Ch.run atof args =
      if num 'n' 1024 (getopt Ch.opts args) < 64 then
        .ok (Cher.search (num 'l' 100 (getopt Ch.opts args)) (2 ^ num 'n' 1024 (getopt Ch.opts args)) ((2 : Real) ^ ((given 'p' (getopt Ch.opts args)).map atof).getD (-40)))
      else .error (.ub .badConversion) := by
  have key := parse_ok (opts := Ch.opts) (init := Ch.default) (Ch.handle_ok atof) (Ch.handle_bad atof) args
  set evs := getopt Ch.opts args with hevs
  have pos : ∀ c, c ≠ 'p' → c ≠ 'q' → ∀ e ∈ evs, e.1 = c → 0 ≤ atol e.2 := by
    intro c h1 h2 e he hc
    rcases (ha e he).1 with h | h | h
    · exact le_of_lt h.2
    · exact h.2
    · rw [hc] at h
      simp only [List.mem_cons, List.not_mem_nil, or_false] at h
      exact absurd h (not_or.2 ⟨h1, h2⟩)
  have e1 := fold_field (upd := Ch.upd atof) Ch.l 'l' (fun a => toSizeT (atol a)) (fun _ _ => rfl) evs Ch.default
  have e2 := fold_field (upd := Ch.upd atof) Ch.n 'n' (fun a => toSizeT (atol a)) (fun _ _ => rfl) evs Ch.default
  have e3 : _ = ((given 'p' evs).map atof).getD (-40) := fold_field (upd := Ch.upd atof) Ch.p 'p' atof (fun _ _ => rfl) evs Ch.default
  rw [num_field (pos _ (by decide) (by decide))] at e1 e2
  have e1' : _ = num 'l' 100 evs := e1
  have e2' : _ = num 'n' 1024 evs := e2
  unfold Ch.run
  rw [(key _).2 ⟨ha, rfl⟩, ok_bind, e1', e2', e3]
  unfold powSizeT
  split <;> rfl

/-- Every program refuses at the first option it does not accept.  The report of an option that is not known reads beyond the end of `argv` unless there are 62 words or more. -/
theorem C104_refused (atof : Str → Real) (tool : Tool) (args : List Str) {pre post : List Event} {e : Event} (hg : getopt tool.opts args = pre ++ e :: post)
    (hp : ∀ x ∈ pre, tool.accepts atof x) (he : ¬ tool.accepts atof e) : tool.ends atof args (tool.refusal (args.length + 1) e) := by
  cases tool
  · have := fold_error (handle := Sim.handle (args.length + 1)) (Sim.handle_ok _) (post := post) hp (fun s => Sim.handle_bad (args.length + 1) s e he) Sim.default
    change Sim.run args = _
    unfold Sim.run parse
    rw [show getopt Sim.opts args = _ from hg, this]
    rfl
  · have := fold_error (handle := Hb.handle (args.length + 1)) (Hb.handle_ok _) (post := post) hp (fun s => Hb.handle_bad (args.length + 1) s e he) Hb.default
    change Hb.run args = _
    unfold Hb.run parse
    rw [show getopt Hb.opts args = _ from hg, this]
    rfl
  · have := fold_error (handle := Bp.handle (args.length + 1)) (Bp.handle_ok _) (post := post) hp (fun s => Bp.handle_bad (args.length + 1) s e he) Bp.default
    change Bp.run args = _
    unfold Bp.run parse
    rw [show getopt Bp.opts args = _ from hg, this]
  · have := fold_error (handle := Pf.handle (args.length + 1)) (Pf.handle_ok _) (post := post) hp (fun s => Pf.handle_bad (args.length + 1) s e he) Pf.default
    change Pf.run args = _
    unfold Pf.run parse
    rw [show getopt Pf.opts args = _ from hg, this]
  · have := fold_error (handle := Rg.handle (args.length + 1)) (Rg.handle_ok _) (post := post) hp (fun s => Rg.handle_bad (args.length + 1) s e he) Rg.default
    change Rg.run args = _
    unfold Rg.run parse
    rw [show getopt Rg.opts args = _ from hg, this]
    rfl
  · have := fold_error (handle := Ch.handle atof (args.length + 1)) (Ch.handle_ok atof _) (post := post) hp
      (fun s => Ch.handle_bad atof (args.length + 1) s e he) Ch.default
    change Ch.run atof args = _
    unfold Ch.run parse
    rw [show getopt Ch.opts args = _ from hg, this]
    rfl


/-! ## Words -/

theorem getopt_pair {opts : Str} {c : Char} (hc : lookup opts c = some true) (hne : c ≠ '-') (a : Str) (rest : List Str) :
    getopt opts (['-', c] :: a :: rest) = (c, a) :: getopt opts rest := by
  rw [getopt]
  rw [if_neg (fun h => hne h.1)]
  simp [cluster, hc]

theorem getopt_flag {opts : Str} {c : Char} (hc : lookup opts c = some false) (hne : c ≠ '-') (rest : List Str) :
    getopt opts (['-', c] :: rest) = (c, []) :: getopt opts rest := by
  rw [getopt]
  rw [if_neg (fun h => hne h.1)]
  simp [cluster, hc]

theorem getopt_unknown {opts : Str} {c : Char} (hc : lookup opts c = none) (hne : c ≠ '-') (rest : List Str) :
    getopt opts (['-', c] :: rest) = ('?', []) :: getopt opts rest := by
  rw [getopt]
  rw [if_neg (fun h => hne h.1)]
  simp [cluster, hc]

theorem getopt_nil (opts : Str) : getopt opts [] = [] := by rw [getopt]

/-- How words become options: a value stands in the same word or in the next one, flags may share a word, other words are skipped, `--` ends the options, and a value that is
missing counts as an option that is not known. -/
theorem C104_words (tool : Tool) (c : Char) (hne : c ≠ '-') (rest : List Str) :
    (lookup tool.opts c = some true → ∀ a : Str, a ≠ [] → getopt tool.opts (('-' :: c :: a) :: rest) = (c, a) :: getopt tool.opts rest) ∧
    (lookup tool.opts c = some true → ∀ a : Str, getopt tool.opts (['-', c] :: a :: rest) = (c, a) :: getopt tool.opts rest) ∧
    (lookup tool.opts c = some true → getopt tool.opts [['-', c]] = [('?', [])]) ∧
    (lookup tool.opts c = some false → ∀ d cs, d ≠ '-' → getopt tool.opts (('-' :: c :: d :: cs) :: rest) = (c, []) :: getopt tool.opts (('-' :: d :: cs) :: rest)) ∧
    (∀ w : Str, w.head? ≠ some '-' → getopt tool.opts (w :: rest) = getopt tool.opts rest) ∧
    getopt tool.opts (['-', '-'] :: rest) = [] := by
  refine ⟨?_, fun h a => getopt_pair h hne a rest, ?_, ?_, ?_, ?_⟩
  · intro h a ha
    rw [getopt, if_neg (fun h => hne h.1)]
    simp [cluster, h, ha]
  · intro h
    rw [getopt, if_neg (fun h => hne h.1)]
    simp [cluster, h, getopt_nil]
  · intro h d cs hd
    rw [getopt, if_neg (fun h => hne h.1), getopt, if_neg (fun h => hd h.1)]
    conv_lhs => unfold cluster
    rw [h]
    rfl
  · intro w hw
    match w with
    | [] => rw [getopt]; intro c cs h; cases h
    | [x] => rw [getopt]; intro c cs h; cases h
    | x :: y :: ys =>
      rw [getopt]
      rintro c cs h
      cases h
      exact hw rfl
  · rw [getopt, if_pos ⟨rfl, rfl⟩]

theorem not_accepts_question (atof : Str → Real) (tool : Tool) (a : Str) : ¬ tool.accepts atof ('?', a) := by
  cases tool <;> simp [Tool.accepts, Accepts]

theorem not_accepts_h (atof : Str → Real) (tool : Tool) (a : Str) : ¬ tool.accepts atof ('h', a) := by
  cases tool <;> simp [Tool.accepts, Accepts]

/-- One word with an option the program does not know: the program reads beyond the end of `argv`. -/
theorem C104_unknown (atof : Str → Real) (tool : Tool) (c : Char) (hc : lookup tool.opts c = none) (hne : c ≠ '-') (rest : List Str) (hr : rest.length < 61) :
    tool.ends atof (['-', c] :: rest) (.ub .outOfBounds) := by
  have h := C104_refused atof tool (['-', c] :: rest) (pre := []) (e := ('?', [])) (getopt_unknown hc hne rest) (by simp) (not_accepts_question atof tool [])
  have hl : (['-', c] :: rest).length + 1 < 63 := by simp only [List.length_cons]; omega
  have he : tool.refusal ((['-', c] :: rest).length + 1) ('?', []) = .ub .outOfBounds := by
    cases tool <;> simp only [Tool.refusal, if_true, if_pos hl]
  rwa [he] at h

/-- `-h` as the first word: the usage, whatever follows. -/
theorem C104_help (atof : Str → Real) (tool : Tool) (rest : List Str) : tool.ends atof (['-', 'h'] :: rest) (.exit 1) := by
  have hg : getopt tool.opts (['-', 'h'] :: rest) = [] ++ ('h', []) :: getopt tool.opts rest := getopt_flag (by cases tool <;> decide) (by decide) rest
  have h := C104_refused atof tool (['-', 'h'] :: rest) hg (by simp) (not_accepts_h atof tool [])
  cases tool <;> exact h

/-- `polyfact` announces an option `-o` and refuses it. -/
theorem C104_polyfact_o (file : Str) (rest : List Str) : Pf.run ("-o".toList :: file :: rest) = .error (.exit 1) :=
  C104_refused (fun _ => 0) .polyfact ("-o".toList :: file :: rest) (pre := []) (e := ('o', file)) (getopt_pair (by decide) (by decide) file rest) (by simp)
    (by simp [Tool.accepts, Accepts])

/-- Every admissible choice of parameters has a command line; what follows the digits of a number is ignored. -/
theorem C104_simulator_line {b j k l n p r : Nat} (hb : 0 < b) (hk : 0 < k) (hl : 0 < l) (hn : 0 < n) (hrn : r ≤ n) (hbp : b ≤ p)
    (h63 : ∀ x ∈ [b, j, k, l, n, p, r], x < 2 ^ 63) (rest : Char → Str) (hrest : ∀ c x, (rest c).head? = some x → NumFile.isDigit x = false) :
    Sim.run ["-b".toList, NumFile.decimal b ++ rest 'b', "-j".toList, NumFile.decimal j ++ rest 'j', "-k".toList, NumFile.decimal k ++ rest 'k',
      "-l".toList, NumFile.decimal l ++ rest 'l', "-n".toList, NumFile.decimal n ++ rest 'n', "-p".toList, NumFile.decimal p ++ rest 'p',
      "-r".toList, NumFile.decimal r ++ rest 'r'] = .ok ⟨b, j % 2 ^ 32, k, l, n, p, r⟩ := by
  rw [C104_simulator]
  have ho : ∀ c ∈ ['b', 'j', 'k', 'l', 'n', 'p', 'r'], lookup Sim.opts c = some true ∧ c ≠ '-' := by decide
  have hg : getopt Sim.opts ["-b".toList, NumFile.decimal b ++ rest 'b', "-j".toList, NumFile.decimal j ++ rest 'j', "-k".toList, NumFile.decimal k ++ rest 'k',
      "-l".toList, NumFile.decimal l ++ rest 'l', "-n".toList, NumFile.decimal n ++ rest 'n', "-p".toList, NumFile.decimal p ++ rest 'p',
      "-r".toList, NumFile.decimal r ++ rest 'r'] = [('b', NumFile.decimal b ++ rest 'b'), ('j', NumFile.decimal j ++ rest 'j'), ('k', NumFile.decimal k ++ rest 'k'),
      ('l', NumFile.decimal l ++ rest 'l'), ('n', NumFile.decimal n ++ rest 'n'), ('p', NumFile.decimal p ++ rest 'p'), ('r', NumFile.decimal r ++ rest 'r')] := by
    have hw : ∀ c : Char, c ∈ ['b', 'j', 'k', 'l', 'n', 'p', 'r'] → ∀ a rest, getopt Sim.opts (['-', c] :: a :: rest) = (c, a) :: getopt Sim.opts rest :=
      fun c hc a rest => getopt_pair (ho c hc).1 (ho c hc).2 a rest
    change getopt Sim.opts [['-', 'b'], _, ['-', 'j'], _, ['-', 'k'], _, ['-', 'l'], _, ['-', 'n'], _, ['-', 'p'], _, ['-', 'r'], _] = _
    rw [hw 'b' (by decide), hw 'j' (by decide), hw 'k' (by decide), hw 'l' (by decide), hw 'n' (by decide), hw 'p' (by decide), hw 'r' (by decide), getopt_nil]
  rw [hg]
  have ev : ∀ x ∈ [b, j, k, l, n, p, r], ∀ c, atol (NumFile.decimal x ++ rest c) = x := fun x hx c => atol_decimal (h63 x hx) (rest c) (hrest c)
  have eb := ev b (by simp) 'b'
  have ej := ev j (by simp) 'j'
  have ek := ev k (by simp) 'k'
  have el := ev l (by simp) 'l'
  have en := ev n (by simp) 'n'
  have ep := ev p (by simp) 'p'
  have er := ev r (by simp) 'r'
  refine ⟨?_, ?_, ?_, ?_, ?_, ?_, ?_, ?_, hrn, hbp⟩
  · intro e he
    simp only [List.mem_cons, List.not_mem_nil, or_false] at he
    rcases he with rfl | rfl | rfl | rfl | rfl | rfl | rfl
    · exact Or.inl ⟨by simp, by rw [eb]; omega⟩
    · exact Or.inr (Or.inl ⟨by simp, by rw [ej]; omega⟩)
    · exact Or.inl ⟨by simp, by rw [ek]; omega⟩
    · exact Or.inl ⟨by simp, by rw [el]; omega⟩
    · exact Or.inl ⟨by simp, by rw [en]; omega⟩
    · exact Or.inl ⟨by simp, by rw [ep]; omega⟩
    · exact Or.inr (Or.inl ⟨by simp, by rw [er]; omega⟩)
  all_goals simp [num, given, eb, ej, ek, el, en, ep, er]

/-- What the options of the simulator guarantee to the rest of the program. -/
theorem C104_simulator_guarantees {args : List Str} {s : Sim} (h : Sim.run args = .ok s) :
    0 < s.b ∧ 0 < s.k ∧ 0 < s.l ∧ 0 < s.n ∧ 0 < s.p ∧ s.r ≤ s.n ∧ s.b ≤ s.p ∧ s.j < 2 ^ 32 ∧ s.n < 2 ^ 63 := by
  obtain ⟨ha, h1, h2, h3, h4, h5, h6, h7, h8, h9⟩ := (C104_simulator args s).1 h
  have pos : ∀ c ∈ ['b', 'k', 'l', 'n', 'p'], ∀ d, 0 < d → 0 < num c d (getopt Sim.opts args) := by
    intro c hc d hd
    unfold num
    cases hg : given c (getopt Sim.opts args) with
    | none => exact hd
    | some a =>
      have := ha _ (given_mem hg)
      rcases this with h | h | h
      · have := h.2
        simp only [Option.map_some, Option.getD_some]
        simp only at this
        omega
      · exfalso
        have h1 := h.1
        revert hc h1
        simp only [List.mem_cons, List.not_mem_nil, or_false]
        rintro (rfl | rfl | rfl | rfl | rfl) (h | h) <;> exact absurd h (by decide)
      · cases h
  have hn63 : num 'n' 100000 (getopt Sim.opts args) < 2 ^ 63 := by
    unfold num
    cases hg : given 'n' (getopt Sim.opts args) with
    | none => decide
    | some a =>
      have := atol_lt a
      simp only [Option.map_some, Option.getD_some]
      omega
  refine ⟨?_, ?_, ?_, ?_, ?_, h8, h9, ?_, ?_⟩
  · rw [h1]; exact pos 'b' (by simp) _ (by decide)
  · rw [h3]; exact pos 'k' (by simp) _ (by decide)
  · rw [h4]; exact pos 'l' (by simp) _ (by decide)
  · rw [h5]; exact pos 'n' (by simp) _ (by decide)
  · rw [h6]; exact pos 'p' (by simp) _ (by decide)
  · rw [h2]; exact Nat.mod_lt _ (by decide)
  · rw [h5]; exact hn63

/-- No command line makes the simulator, as shipped, print a verdict. -/
theorem C104_no_verdict {args : List Str} {s : Sim} (h : Sim.run args = .ok s) {p : Nat} [Fact p.Prime] (D : Digest) (F : Factoring p) (hw : Nat)
    (seed : UInt32) (qsort : (Int → Int → Int) → List Int → List Int) (ntl crand : List Nat) :
    ∃ f, Simul.program D F hw seed qsort s.params (World.init ntl crand) = .fault f :=
  C76_no_verdict seed qsort s.params (C104_simulator_guarantees h).2.2.2.1 ntl crand

/-- `zzrndgen -n d` with `1 ≤ d ≤ 9` divides by zero. -/
theorem C104_zzrndgen_small (D : Digest) {d : Nat} (h1 : 1 ≤ d) (h9 : d ≤ 9) (r : Nat) (rnd : List Nat) :
    ∃ s, Rg.run ["-n".toList, NumFile.decimal d] = .ok s ∧ NumFile.zzrndgen D s.n s.b (r :: rnd) = .error (.ub .divByZero) := by
  have hg : getopt Rg.opts ["-n".toList, NumFile.decimal d] = [('n', NumFile.decimal d)] := by
    change getopt Rg.opts [['-', 'n'], _] = _
    rw [getopt_pair (by decide) (by decide), getopt_nil]
  have hv : atol (NumFile.decimal d) = d := by
    have := atol_decimal (n := d) (by omega) [] (by simp)
    rwa [List.append_nil] at this
  refine ⟨⟨80, d, "zz.dat".toList⟩, (C104_zzrndgen _ _).2 ?_, (C66_small D d 80 (by decide) r rnd).1 h1 h9⟩
  rw [hg]
  refine ⟨?_, by simp [num, given], ?_, by simp [text, given]⟩
  · intro e he
    rw [List.mem_singleton.1 he]
    exact Or.inr (Or.inr (by simp))
  · simp only [wrapped, given, List.filter, decide_true, List.getLast?_singleton, Option.map_some, Option.getD_some, hv]
    omega

/-- `hbtest` with a number of buckets that is zero or not a number divides by zero. -/
theorem C104_hbtest_zero {a : Str} (ha : atol a = 0) : ∃ alg k l file, Hb.run ["-k".toList, a] = .ok (alg, k, l, file) ∧ ∀ n, Hb.checkLoad n k l = .error (.ub .divByZero) := by
  have hg : getopt Hb.opts ["-k".toList, a] = [('k', a)] := by
    change getopt Hb.opts [['-', 'k'], _] = _
    rw [getopt_pair (by decide) (by decide), getopt_nil]
  refine ⟨.murmur, 0, 140, "zz.dat".toList, (C104_hbtest _ _ _ _ _).2 ?_, fun n => by unfold Hb.checkLoad; rw [if_pos rfl]⟩
  rw [hg]
  refine ⟨?_, by simp [namedAlg], ?_, by simp [wrapped, given], by simp [text, given]⟩
  · intro e he
    rw [List.mem_singleton.1 he]
    exact ⟨by simp, by simp⟩
  · simp [wrapped, given, ha]

/-- **C104 (numbers).**  How the value of an option is read: white space and a sign may come first, what follows the digits is ignored, values out of range are replaced by the nearest `long`, and a word that
does not start with a number is 0. -/
theorem C104_numbers (ws rest : Str) (n : Nat) (hws : ∀ c ∈ ws, NumFile.isSpace c = true) (hr : ∀ c, rest.head? = some c → NumFile.isDigit c = false) :
    atol (ws ++ NumFile.decimal n ++ rest) = min (n : Int) (2 ^ 63 - 1) ∧ atol (ws ++ '+' :: NumFile.decimal n ++ rest) = min (n : Int) (2 ^ 63 - 1) ∧
    atol (ws ++ '-' :: NumFile.decimal n ++ rest) = max (-(n : Int)) (-2 ^ 63) ∧
    ((∀ c, rest.head? = some c → NumFile.isSpace c = false ∧ c ≠ '+' ∧ c ≠ '-') → atol (ws ++ rest) = 0) := by
  obtain ⟨h1, h2, h3⟩ := NumFile.decimal_spec n
  have ht : (NumFile.decimal n ++ rest).takeWhile NumFile.isDigit = NumFile.decimal n := by
    rw [List.takeWhile_append_of_pos h2]
    cases rest with
    | nil => simp
    | cons c cs => rw [List.takeWhile_cons_of_neg (by simp [hr c rfl]), List.append_nil]
  have hdrop : ∀ t : Str, (∀ c, t.head? = some c → NumFile.isSpace c = false) → (ws ++ t).dropWhile NumFile.isSpace = t := by
    intro t ht
    rw [List.dropWhile_append_of_pos hws]
    cases t with
    | nil => rfl
    | cons c cs => rw [List.dropWhile_cons_of_neg (by simp [ht c rfl])]
  obtain ⟨d, ds, hd⟩ := List.exists_cons_of_ne_nil h1
  have hdig := h2 d (by rw [hd]; exact List.mem_cons_self)
  have n1 : d ≠ '-' := by rintro rfl; exact absurd hdig (by decide)
  have n2 : d ≠ '+' := by rintro rfl; exact absurd hdig (by decide)
  refine ⟨?_, ?_, ?_, fun h => ?_⟩
  · have hd0 := hdrop (NumFile.decimal n ++ rest) (by
      rw [hd]
      rintro c hc
      obtain rfl := Option.some.inj hc
      unfold NumFile.isDigit at hdig
      unfold NumFile.isSpace
      simp only [decide_eq_true_eq, decide_eq_false_iff_not] at hdig ⊢
      omega)
    unfold atol
    simp only [List.append_assoc, hd0]
    rw [hd, List.cons_append]
    rw [hd, List.cons_append] at ht
    split
    · rename_i h; exact absurd (List.cons.inj h).1 n1
    · rename_i h; exact absurd (List.cons.inj h).1 n2
    · rw [ht, ← hd, h3]
  · unfold atol
    simp only [List.append_assoc, List.cons_append]
    rw [hdrop ('+' :: (NumFile.decimal n ++ rest)) (by rintro c hc; obtain rfl := Option.some.inj hc; decide)]
    split
    · rename_i h; exact absurd (List.cons.inj h).1 (by decide)
    · rename_i h; rw [← (List.cons.inj h).2, ht, h3]
    · rename_i h; exact absurd rfl (h _)
  · unfold atol
    simp only [List.append_assoc, List.cons_append]
    rw [hdrop ('-' :: (NumFile.decimal n ++ rest)) (by rintro c hc; obtain rfl := Option.some.inj hc; decide)]
    split
    · rename_i h; rw [← (List.cons.inj h).2, ht, h3]
    · rename_i h; exact absurd (List.cons.inj h).1 (by decide)
    · rename_i h _; exact absurd rfl (h _)
  · unfold atol
    simp only
    rw [hdrop rest fun c hc => (h c hc).1]
    have hz : rest.takeWhile NumFile.isDigit = [] := by
      cases rest with
      | nil => rfl
      | cons c cs => rw [List.takeWhile_cons_of_neg (by simp [hr c rfl])]
    split
    · exact absurd rfl (h '-' rfl).2.2
    · exact absurd rfl (h '+' rfl).2.1
    · rw [hz]; rfl

/-! ## The hypotheses are met -/

example : Sim.run ["-qn5".toList] = .error (.ub .outOfBounds) := by decide +kernel
example : (Sim.run ["-n5".toList, "extra".toList, "-r".toList, " 2x".toList, "-n".toList, "7".toList, "--".toList, "-h".toList]).toOption.map (fun s => (s.n, s.r)) = some (7, 2) := by decide +kernel
example : Sim.run ["-r2".toList, "-n1".toList] = .error (.exit 1) := by decide +kernel
example : atol " +12kB".toList = 12 ∧ atol "-99999999999999999999".toList = -2 ^ 63 := by decide +kernel
example : atol "many".toList = 0 ∧ atol "-7".toList = -7 := by decide +kernel
example : Sim.run ["-n5".toList, "-k3".toList] = .ok ⟨32, 0, 3, 30, 5, 113, 1⟩ := by decide +kernel
example : Sim.run ["-n".toList, "0".toList] = .error (.exit 1) := by decide +kernel
example : Ch.run (fun _ => -1) [] = .error (.ub .badConversion) := by
  have := C104_cherpars (fun _ => -1) [] (by rw [getopt_nil]; simp)
  rw [getopt_nil] at this
  exact this
example : Ch.run (fun _ => -1) ["-n".toList, "10".toList] = .ok (Cher.search 100 1024 ((2 : Real) ^ (-40 : Real))) := by
  have hg : getopt Ch.opts ["-n".toList, "10".toList] = [('n', "10".toList)] := by decide +kernel
  have := C104_cherpars (fun _ => -1) ["-n".toList, "10".toList] (by
    rw [hg]
    intro e he
    rw [List.mem_singleton.1 he]
    exact ⟨Or.inl ⟨by simp, by decide +kernel⟩, fun h => absurd h (by decide)⟩)
  have hn : num 'n' 1024 [('n', "10".toList)] = 10 := by decide +kernel
  have hl : num 'l' 100 [('n', "10".toList)] = 100 := by decide +kernel
  rw [hg, hn, hl, if_pos (by decide)] at this
  exact this

end EoPsi.Cli
