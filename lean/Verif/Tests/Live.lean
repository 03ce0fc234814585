import Verif.Neighborhood.Props
import Verif.Tests.Props

/-!
# Tests which draw again until a condition holds

Such a test need not end: nothing is known about the draws.  But whatever it has drawn so far, it can still end with success.
-/

namespace Hnco

open Outcome

/-- The results which are not normal returns. -/
def Res.Fails {α : Type} (r : Res α) : Prop := r = .ub ∨ ∃ e, r = .throw e

/-- A computation which looks at draws one after another, and which, wherever it stands, can go on to an end. -/
structure Sim.Flows {α : Type} (m : Sim α) : Prop where
  stays : ∀ ds a rest, m ds = .ok a rest → ∃ used, ds = used ++ rest ∧ ∀ tail, m (used ++ tail) = .ok a tail
  fails : ∀ ds, (m ds).Fails → ∀ tail, (m (ds ++ tail)).Fails
  goes : ∀ ds, m ds = .out → ∃ more, (∃ a, ∀ tail, m (ds ++ more ++ tail) = .ok a tail) ∨ (m (ds ++ more)).Fails

namespace Sim.Flows

theorem pure {α : Type} (a : α) : Sim.Flows (Pure.pure a : Sim α) := by
  refine ⟨fun ds b rest h => ?_, fun ds h => ?_, fun ds h => ?_⟩
  · cases h
    exact ⟨[], rfl, fun _ => rfl⟩
  · rcases h with h | ⟨e, h⟩ <;> cases h
  · cases h

theorem lift {α : Type} (o : Outcome α) : Sim.Flows (Sim.lift o) := by
  cases o with
  | ok a => exact pure a
  | throw e => exact ⟨fun _ _ _ h => (nomatch h), fun _ h _ => h, fun _ h => (nomatch h)⟩
  | ub => exact ⟨fun _ _ _ h => (nomatch h), fun _ h _ => h, fun _ h => (nomatch h)⟩

theorem bind_ok {α β : Type} {m : Sim α} {f : α → Sim β} {ds rest : List Nat} {a : α} (h : m ds = .ok a rest) :
    (m >>= f) ds = f a rest := by
  change Sim.bind m f ds = _
  unfold Sim.bind
  rw [h]

theorem bind_fails {α β : Type} {m : Sim α} {f : α → Sim β} {ds : List Nat} (h : (m ds).Fails) : ((m >>= f) ds).Fails := by
  change (Sim.bind m f ds).Fails
  unfold Sim.bind
  rcases h with h | ⟨e, h⟩ <;> rw [h]
  · exact Or.inl rfl
  · exact Or.inr ⟨e, rfl⟩

theorem bind_out {α β : Type} {m : Sim α} {f : α → Sim β} {ds : List Nat} (h : m ds = .out) : (m >>= f) ds = .out := by
  change Sim.bind m f ds = _
  unfold Sim.bind
  rw [h]

theorem res_cases {α : Type} (r : Res α) : (∃ a rest, r = .ok a rest) ∨ r.Fails ∨ r = .out := by
  cases r with
  | ok a rest => exact Or.inl ⟨a, rest, rfl⟩
  | throw e => exact Or.inr (Or.inl (Or.inr ⟨e, rfl⟩))
  | ub => exact Or.inr (Or.inl (Or.inl rfl))
  | out => exact Or.inr (Or.inr rfl)

theorem fails_ok {α : Type} {a : α} {rest : List Nat} (h : (Res.ok a rest).Fails) : False := by
  rcases h with h | ⟨e, h⟩ <;> cases h

theorem fails_out {α : Type} (h : (Res.out : Res α).Fails) : False := by
  rcases h with h | ⟨e, h⟩ <;> cases h

/-- From anywhere, there is a way to an end. -/
theorem ends {α : Type} {m : Sim α} (h : Sim.Flows m) (ds : List Nat) :
    (∃ used rest a, ds = used ++ rest ∧ ∀ tail, m (used ++ tail) = .ok a tail) ∨
    (∃ more, (∃ a, ∀ tail, m (ds ++ more ++ tail) = .ok a tail) ∨ (m (ds ++ more)).Fails) := by
  rcases res_cases (m ds) with ⟨a, rest, hr⟩ | hr | hr
  · obtain ⟨used, h1, h2⟩ := h.stays _ _ _ hr
    exact Or.inl ⟨used, rest, a, h1, h2⟩
  · exact Or.inr ⟨[], Or.inr (by rwa [List.append_nil])⟩
  · exact Or.inr (h.goes _ hr)

theorem bindP {α β : Type} {m : Sim α} {f : α → Sim β} {P : α → Prop} (h : Sim.Flows m) (hp : Sim.PostOk m P)
    (hf : ∀ a, P a → Sim.Flows (f a)) : Sim.Flows (m >>= f) := by
  refine ⟨fun ds b r e => ?_, fun ds e tail => ?_, fun ds e => ?_⟩
  · rcases res_cases (m ds) with ⟨a, rest, hr⟩ | hr | hr
    · obtain ⟨used, hu, hl⟩ := h.stays _ _ _ hr
      rw [bind_ok hr] at e
      obtain ⟨used', hu', hl'⟩ := (hf a (hp _ _ _ hr)).stays _ _ _ e
      refine ⟨used ++ used', by rw [hu, hu', List.append_assoc], fun tail => ?_⟩
      rw [List.append_assoc, bind_ok (hl _), hl']
    · have := bind_fails (f := f) hr
      rw [e] at this
      exact (fails_ok this).elim
    · rw [bind_out hr] at e
      cases e
  · rcases res_cases (m ds) with ⟨a, rest, hr⟩ | hr | hr
    · obtain ⟨used, hu, hl⟩ := h.stays _ _ _ hr
      rw [bind_ok hr] at e
      rw [hu, List.append_assoc, bind_ok (hl _)]
      exact (hf a (hp _ _ _ hr)).fails _ e tail
    · exact bind_fails (h.fails _ hr tail)
    · rw [bind_out hr] at e
      exact (fails_out e).elim
  · rcases res_cases (m ds) with ⟨a, rest, hr⟩ | hr | hr
    · obtain ⟨used, hu, hl⟩ := h.stays _ _ _ hr
      rw [bind_ok hr] at e
      obtain ⟨more, hm⟩ := (hf a (hp _ _ _ hr)).goes _ e
      refine ⟨more, ?_⟩
      rw [hu]
      rcases hm with ⟨b, hb⟩ | hb
      · refine Or.inl ⟨b, fun tail => ?_⟩
        rw [List.append_assoc, List.append_assoc, bind_ok (hl _), ← List.append_assoc, hb]
      · refine Or.inr ?_
        rw [List.append_assoc, bind_ok (hl _)]
        exact hb
    · have := bind_fails (f := f) hr
      rw [e] at this
      exact (fails_out this).elim
    · obtain ⟨more, hm⟩ := h.goes _ hr
      rcases hm with ⟨a, ha⟩ | ha
      · have h0 := ha []
        rw [List.append_nil] at h0
        have hfa := hf a (hp _ _ _ h0)
        rcases res_cases (f a []) with ⟨b, rest, hr'⟩ | hr' | hr'
        · obtain ⟨used, hu, hl⟩ := hfa.stays _ _ _ hr'
          obtain ⟨rfl, rfl⟩ := List.append_eq_nil_iff.mp hu.symm
          exact ⟨more, Or.inl ⟨b, fun tail => by rw [bind_ok (ha _)]; exact hl tail⟩⟩
        · exact ⟨more, Or.inr (by rw [bind_ok h0]; exact hr')⟩
        · obtain ⟨more', hm'⟩ := hfa.goes _ hr'
          refine ⟨more ++ more', ?_⟩
          rcases hm' with ⟨b, hb⟩ | hb
          · refine Or.inl ⟨b, fun tail => ?_⟩
            rw [← List.append_assoc, List.append_assoc, bind_ok (ha _)]
            exact hb tail
          · refine Or.inr ?_
            rw [← List.append_assoc, bind_ok (ha _)]
            exact hb
      · exact ⟨more, Or.inr (bind_fails ha)⟩

theorem bind {α β : Type} {m : Sim α} {f : α → Sim β} (h : Sim.Flows m) (hf : ∀ a, Sim.Flows (f a)) : Sim.Flows (m >>= f) :=
  bindP h (Sim.PostOk.trivial m) fun a _ => hf a

theorem draw : Sim.Flows Sim.draw := by
  refine ⟨fun ds b rest h => ?_, fun ds h => ?_, fun ds h => ?_⟩
  · cases ds with
    | nil => cases h
    | cons d ds =>
      obtain ⟨rfl, rfl⟩ : d = b ∧ ds = rest := by injection h with h1 h2; exact ⟨h1, h2⟩
      exact ⟨[d], rfl, fun _ => rfl⟩
  · cases ds with
    | nil => exact (fails_out h).elim
    | cons d ds => exact (fails_ok h).elim
  · cases ds with
    | nil => exact ⟨[0], Or.inl ⟨0, fun _ => rfl⟩⟩
    | cons d ds => cases h

theorem shuffle {α : Type} (l : List α) : Sim.Flows (Sim.shuffle l) := by
  have : Sim.shuffle l = (do
      let d ← Sim.draw
      Pure.pure ((l.permutations'[d % l.permutations'.length]?).getD l)) := by
    funext ds
    cases ds <;> rfl
  rw [this]
  exact draw.bind fun _ => pure _

theorem sort {α : Type} (lt : α → α → Bool) (l : List α) : Sim.Flows (Sim.sort lt l) := by
  have : Sim.sort lt l = (do
      let d ← Sim.draw
      Sim.lift (match (Sim.sorted lt l)[d % (Sim.sorted lt l).length]? with
        | some r => Outcome.ok r
        | none => Outcome.ub)) := by
    funext ds
    cases ds with
    | nil => rfl
    | cons d ds =>
      change Sim.sort lt l (d :: ds) = Sim.lift _ ds
      unfold Sim.sort Sim.lift
      simp only
      cases (Sim.sorted lt l)[d % (Sim.sorted lt l).length]? <;> rfl
  rw [this]
  exact draw.bind fun _ => lift _

theorem uniformInt (lo hi : Nat) : Sim.Flows (Sim.uniformInt lo hi) := (lift _).bind fun _ => draw.bind fun _ => pure _

theorem bernoulli : Sim.Flows Sim.bernoulli := draw.bind fun _ => pure _

theorem uniform : Sim.Flows Sim.uniform := draw.bind fun _ => draw.bind fun _ => pure _

theorem ite {α : Type} {c : Prop} [Decidable c] {m n : Sim α} (hm : Sim.Flows m) (hn : Sim.Flows n) :
    Sim.Flows (if c then m else n) := by
  split
  · exact hm
  · exact hn

theorem forLoop {σ : Type} {body : Nat → σ → Sim σ} (h : ∀ i s, Sim.Flows (body i s)) :
    ∀ n i s, Sim.Flows (Sim.forLoop n i body s)
  | 0, _, s => pure s
  | n + 1, i, s => (h i s).bind fun t => forLoop h n (i + 1) t

theorem forRange {σ : Type} {body : Nat → σ → Sim σ} (h : ∀ i s, Sim.Flows (body i s)) (a b : Nat) (s : σ) :
    Sim.Flows (Sim.forRange a b body s) := forLoop h _ _ s

/-- A loop with a condition needs a turn for each draw and one more. -/
theorem doWhileGo_more {σ : Type} {body : σ → Sim σ} {again : σ → Bool} {I : σ → Prop} (h : ∀ s, Sim.Flows (body s))
    (hI : ∀ s, I s → Sim.PostOk (body s) (fun t => again t = true → I t)) (hdraw : ∀ s, I s → body s [] = .out) :
    ∀ (k : Nat) (s : σ) (ds : List Nat), I s → Sim.doWhileGo body again k s ds ≠ .out →
      (∃ t used rest, ds = used ++ rest ∧ Sim.doWhileGo body again k s ds = .ok t rest ∧
        ∀ tail k', used.length + 1 ≤ k' → Sim.doWhileGo body again k' s (used ++ tail) = .ok t tail) ∨
      (Sim.doWhileGo body again k s ds).Fails ∧
        ∀ tail k', ds.length + 1 ≤ k' → (Sim.doWhileGo body again k' s (ds ++ tail)).Fails
  | 0, _, _, _, hne => absurd rfl hne
  | k + 1, s, ds, hs, hne => by
    unfold Sim.doWhileGo at hne
    rcases res_cases (body s ds) with ⟨t, rest, hr⟩ | hr | hr
    · obtain ⟨used, hu, hl⟩ := (h s).stays _ _ _ hr
      rw [bind_ok hr] at hne
      cases ha : again t with
      | false =>
        refine Or.inl ⟨t, used, rest, hu, ?_, ?_⟩
        · unfold Sim.doWhileGo
          rw [bind_ok hr]
          simp only [ha]
          rfl
        · intro tail k' hk
          obtain ⟨k', rfl⟩ : ∃ j, k' = j + 1 := ⟨k' - 1, by omega⟩
          unfold Sim.doWhileGo
          rw [bind_ok (hl tail)]
          simp only [ha]
          rfl
      | true =>
        have hu0 : used ≠ [] := by
          rintro rfl
          have := hl []
          rw [List.append_nil, hdraw s hs] at this
          cases this
        have hlen : 0 < used.length := List.length_pos_iff.mpr hu0
        simp only [ha, if_true] at hne
        rcases doWhileGo_more h hI hdraw k t rest (hI s hs _ _ _ hr ha) hne with ⟨t', used', rest', h1, h2, h3⟩ | ⟨h2, h3⟩
        · refine Or.inl ⟨t', used ++ used', rest', by rw [hu, h1, List.append_assoc], ?_, ?_⟩
          · unfold Sim.doWhileGo
            rw [bind_ok hr]
            simp only [ha, if_true]
            exact h2
          · intro tail k' hk
            rw [List.length_append] at hk
            obtain ⟨k', rfl⟩ : ∃ j, k' = j + 1 := ⟨k' - 1, by omega⟩
            unfold Sim.doWhileGo
            rw [List.append_assoc, bind_ok (hl _)]
            simp only [ha, if_true]
            exact h3 tail k' (by omega)
        · refine Or.inr ⟨?_, fun tail k' hk => ?_⟩
          · unfold Sim.doWhileGo
            rw [bind_ok hr]
            simp only [ha, if_true]
            exact h2
          · rw [hu, List.length_append] at hk
            obtain ⟨k', rfl⟩ : ∃ j, k' = j + 1 := ⟨k' - 1, by omega⟩
            unfold Sim.doWhileGo
            rw [hu, List.append_assoc, bind_ok (hl _)]
            simp only [ha, if_true]
            exact h3 tail k' (by omega)
    · refine Or.inr ⟨?_, fun tail k' hk => ?_⟩
      · unfold Sim.doWhileGo
        exact bind_fails hr
      · obtain ⟨k', rfl⟩ : ∃ j, k' = j + 1 := ⟨k' - 1, by omega⟩
        unfold Sim.doWhileGo
        exact bind_fails ((h s).fails _ hr tail)
    · rw [bind_out hr] at hne
      exact absurd rfl hne

/-- If the loop can be left from each state which it can be in, it can be left from anywhere. -/
theorem doWhileGo_leaves {σ : Type} {body : σ → Sim σ} {again : σ → Bool} {I : σ → Prop} (h : ∀ s, Sim.Flows (body s))
    (hI : ∀ s, I s → Sim.PostOk (body s) (fun t => again t = true → I t)) (hdraw : ∀ s, I s → body s [] = .out)
    (hleave : ∀ s, I s → ∃ t, Sim.Reaches (body s) t ∧ again t = false) :
    ∀ (n : Nat) (ds : List Nat) (s : σ), ds.length ≤ n → I s → ∃ more k, Sim.doWhileGo body again k s (ds ++ more) ≠ .out ∧
      k ≤ (ds ++ more).length + 1 := by
  intro n
  induction n with
  | zero =>
    intro ds s hds hs
    obtain rfl := List.length_eq_zero_iff.mp (Nat.le_zero.mp hds)
    obtain ⟨t, ⟨ds', hr⟩, ha⟩ := hleave s hs
    refine ⟨ds', 1, ?_, by omega⟩
    have := hr []
    rw [List.append_nil] at this
    unfold Sim.doWhileGo
    rw [List.nil_append, bind_ok this]
    simp only [ha]
    exact nofun
  | succ n ih =>
    intro ds s hds hs
    rcases (h s).ends ds with ⟨used, rest, t, hu, hl⟩ | ⟨more, ⟨t, ht⟩ | hf⟩
    · cases ha : again t with
      | false =>
        refine ⟨[], 1, ?_, by omega⟩
        unfold Sim.doWhileGo
        rw [List.append_nil, hu, bind_ok (hl _)]
        simp only [ha]
        exact nofun
      | true =>
        have hu0 : used ≠ [] := by
          rintro rfl
          have := hl []
          rw [List.append_nil, hdraw s hs] at this
          cases this
        have hlen : 0 < used.length := List.length_pos_iff.mpr hu0
        obtain ⟨more, k, h1, h2⟩ := ih rest t (by rw [hu, List.length_append] at hds; omega) (hI s hs _ _ _ (hl rest) ha)
        refine ⟨more, k + 1, ?_, ?_⟩
        · unfold Sim.doWhileGo
          rw [hu, List.append_assoc, bind_ok (hl _)]
          simp only [ha, if_true]
          exact h1
        · rw [hu, List.append_assoc, List.length_append]
          omega
    · cases ha : again t with
      | false =>
        refine ⟨more, 1, ?_, by omega⟩
        have := ht []
        rw [List.append_nil] at this
        unfold Sim.doWhileGo
        rw [bind_ok this]
        simp only [ha]
        exact nofun
      | true =>
        have h0 := ht []
        rw [List.append_nil] at h0
        obtain ⟨u, ⟨ds', hr⟩, hu⟩ := hleave t (hI s hs _ _ _ h0 ha)
        have h1 : body s (ds ++ (more ++ ds')) = .ok t ds' := by rw [← List.append_assoc]; exact ht ds'
        have hlen : 0 < (ds ++ more).length := by
          rw [List.length_pos_iff]
          intro e
          rw [e, hdraw s hs] at h0
          cases h0
        refine ⟨more ++ ds', 2, ?_, ?_⟩
        · have := hr []
          rw [List.append_nil] at this
          unfold Sim.doWhileGo
          rw [bind_ok h1]
          simp only [ha, if_true]
          unfold Sim.doWhileGo
          rw [bind_ok this]
          simp only [hu]
          exact nofun
        · rw [← List.append_assoc, List.length_append]
          omega
    · refine ⟨more, 1, ?_, by omega⟩
      have := bind_fails (f := fun t => if again t then Sim.doWhileGo body again 0 t else Pure.pure t) hf
      intro e
      unfold Sim.doWhileGo at e
      rw [e] at this
      exact fails_out this

theorem doWhile {σ : Type} {body : σ → Sim σ} {again : σ → Bool} {s : σ} (I : σ → Prop) (hs : I s) (h : ∀ s, Sim.Flows (body s))
    (hI : ∀ s, I s → Sim.PostOk (body s) (fun t => again t = true → I t)) (hdraw : ∀ s, I s → body s [] = .out)
    (hleave : ∀ s, I s → ∃ t, Sim.Reaches (body s) t ∧ again t = false) : Sim.Flows (Sim.doWhile body again s) := by
  have hmore := fun k ds => doWhileGo_more h hI hdraw k s ds hs
  refine ⟨fun ds t rest e => ?_, fun ds e tail => ?_, fun ds e => ?_⟩
  · change Sim.doWhileGo body again (ds.length + 1) s ds = _ at e
    rcases hmore (ds.length + 1) ds (by rw [e]; exact nofun) with ⟨t', used, rest', h1, h2, h3⟩ | ⟨h2, _⟩
    · rw [e] at h2
      injection h2 with h4 h5
      subst h4 h5
      exact ⟨used, h1, fun tail => h3 tail _ (by rw [List.length_append]; omega)⟩
    · rw [e] at h2
      exact (fails_ok h2).elim
  · change (Sim.doWhileGo body again (ds.length + 1) s ds).Fails at e
    rcases hmore (ds.length + 1) ds (by intro h; rw [h] at e; exact fails_out e) with ⟨t', used, rest', h1, h2, h3⟩ | ⟨_, h3⟩
    · rw [h2] at e
      exact (fails_ok e).elim
    · exact h3 tail _ (by rw [List.length_append]; omega)
  · obtain ⟨more, k, h1, h2⟩ := doWhileGo_leaves h hI hdraw hleave ds.length ds s (le_refl _) hs
    rcases hmore k (ds ++ more) h1 with ⟨t, used, rest, h3, h4, h5⟩ | ⟨_, h5⟩
    · rcases List.append_eq_append_iff.mp h3 with ⟨l, h6, h7⟩ | ⟨l, h6, h7⟩
      · refine ⟨l, Or.inl ⟨t, fun tail => ?_⟩⟩
        rw [← h6]
        exact h5 tail _ (by rw [List.length_append]; omega)
      · have := h5 l (ds.length + 1) (by rw [h6, List.length_append]; omega)
        rw [← h6] at this
        change Sim.doWhileGo body again (ds.length + 1) s ds = _ at e
        rw [this] at e
        cases e
    · refine ⟨more, Or.inr ?_⟩
      have := h5 [] ((ds ++ more).length + 1) (le_refl _)
      rwa [List.append_nil] at this

theorem repeatGo_eq {α : Type} (body : Sim α) (stop : α → Bool) : ∀ (k : Nat) (a : α),
    Sim.doWhileGo (fun _ => body) (fun a => !stop a) k a = Sim.repeatGo body stop k
  | 0, _ => rfl
  | k + 1, a => by
    funext ds
    unfold Sim.doWhileGo Sim.repeatGo
    change Sim.bind body _ ds = Sim.bind body _ ds
    congr 1
    funext b
    cases stop b with
    | true => rfl
    | false => exact repeatGo_eq body stop k b

theorem repeatUntil {α : Type} {body : Sim α} {stop : α → Bool} (h : Sim.Flows body) (hdraw : body [] = .out)
    (hleave : ∃ a, Sim.Reaches body a ∧ stop a = true) : Sim.Flows (Sim.repeatUntil body stop) := by
  obtain ⟨a, h1, h2⟩ := hleave
  have : Sim.repeatUntil body stop = Sim.doWhile (fun _ => body) (fun a => !stop a) a := by
    funext ds
    exact (congrFun (repeatGo_eq body stop (ds.length + 1) a) ds).symm
  rw [this]
  exact doWhile (fun _ => True) trivial (fun _ => h) (fun _ _ _ _ _ _ _ => trivial) (fun _ _ => hdraw)
    fun _ _ => ⟨a, h1, by simp [h2]⟩

end Sim.Flows

namespace Tests

theorem every_flows {body : Sim Bool} (h : Sim.Flows body) : ∀ runs, Sim.Flows (every runs body)
  | 0 => Sim.Flows.pure true
  | runs + 1 => h.bind fun _ => Sim.Flows.ite (every_flows h runs) (Sim.Flows.pure false)

/-- Whatever the program has drawn so far, it has ended with the exit status 0, or it asks for another draw and can still end
with this status. -/
def Lives (check : Sim Bool) : Prop :=
  ∀ ds : List Nat, (∃ rest, exitStatus check ds = .ok 0 rest) ∨
    exitStatus check ds = .out ∧ ∃ more, exitStatus check (ds ++ more) = .ok 0 []

theorem Lives.succeeds {check : Sim Bool} (h : Lives check) : Succeeds check := fun ds =>
  (h ds).imp id fun h => h.1

theorem Lives.of_flows {check : Sim Bool} (hs : Succeeds check) (h : Sim.Flows check) : Lives check := by
  have hf : Sim.Flows (exitStatus check) := h.bind fun _ => Sim.Flows.ite (Sim.Flows.pure 0) (Sim.Flows.pure 1)
  intro ds
  refine (hs ds).imp id fun hout => ⟨hout, ?_⟩
  obtain ⟨more, ⟨a, ha⟩ | hm⟩ := hf.goes ds hout
  · have h0 := ha []
    rw [List.append_nil] at h0
    refine ⟨more, ?_⟩
    rcases hs (ds ++ more) with ⟨rest, hr⟩ | hr
    · rw [h0] at hr
      injection hr with h1 h2
      rw [h0, h1]
    · rw [h0] at hr
      cases hr
  · rcases hs (ds ++ more) with ⟨rest, hr⟩ | hr
    · rw [hr] at hm
      exact (Sim.Flows.fails_ok hm).elim
    · rw [hr] at hm
      exact (Sim.Flows.fails_out hm).elim

theorem lives_every {body : Sim Bool} {runs : Nat} (hs : Succeeds (every runs body)) (h : Sim.Flows body) : Lives (every runs body) :=
  .of_flows hs (every_flows h runs)

end Tests

end Hnco
