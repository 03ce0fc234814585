import Verif.App.FfgenLemmas
import Verif.Function.CnfProps
import Verif.Function.ComplementProps
import Verif.Function.IsingProps
import Verif.Function.MaximumProps
import Verif.Function.MaxSatProps
import Verif.Function.NkProps
import Verif.Function.WalshProps
import Verif.Map.CompositionProps
import Verif.Serialization.Props
import Verif.Tests.LiveLemmas
import Verif.Tests.SearchProps
import Verif.Tests.SerializeModel

/-!
# Property C101: the tests of serialization
-/

namespace Hnco.Tests

open Outcome

set_option maxRecDepth 100000

/-! ## Numbers of draws -/

theorem vget_mem {α : Type} {l : List α} {i : Nat} {a : α} (h : vget l i = ok a) : a ∈ l := by
  by_cases hi : i < l.length
  · rw [vget_eq hi] at h
    cases h
    exact List.getElem_mem hi
  · rw [vget_ub (by omega)] at h
    cases h

theorem vset_mem {α : Type} {l l' : List α} {i : Nat} {a b : α} (h : vset l i a = ok l') (hb : b ∈ l') : b ∈ l ∨ b = a := by
  by_cases hi : i < l.length
  · rw [vset_eq hi] at h
    cases h
    exact List.mem_or_eq_of_mem_set hb
  · rw [vset_ub (by omega)] at h
    cases h

theorem forLoop_usesI {σ : Type} {c : Nat} {body : Nat → σ → Sim σ} (b : Nat) (h : ∀ j t, j < b → Sim.Uses c (body j t)) :
    ∀ (n i : Nat) (s : σ), i + n ≤ b → Sim.Uses (n * c) (Sim.forLoop n i body s)
  | 0, _, _, _ => by rw [Nat.zero_mul]; exact Sim.Uses.pure
  | n + 1, i, s, hi => by
    rw [Nat.succ_mul, Nat.add_comm]
    exact (h i s (by omega)).bind fun t => forLoop_usesI b h n (i + 1) t (by omega)

theorem forRange_usesI {σ : Type} {c a b : Nat} {body : Nat → σ → Sim σ} (h : ∀ j t, j < b → Sim.Uses c (body j t)) (s : σ) :
    Sim.Uses ((b - a) * c) (Sim.forRange a b body s) := by
  by_cases hab : a ≤ b
  · exact forLoop_usesI b h _ _ _ (by omega)
  · have : b - a = 0 := by omega
    unfold Sim.forRange
    rw [this, Nat.zero_mul]
    exact Sim.Uses.pure

section
variable {K : Type}

theorem number_uses (g : Nat → K) : Sim.Uses 1 (number g) := Sim.Uses.bind (d := 0) Sim.Uses.draw fun _ => Sim.Uses.pure

theorem number_exactly (g : Nat → K) : Sim.Exactly (number g) (fun v => ∃ d, g d = v) := by
  refine ⟨fun ds => ?_, ?_⟩
  · cases ds with
    | nil => exact trivial
    | cons d ds => exact ⟨d, rfl⟩
  · rintro v ⟨d, rfl⟩
    exact Sim.Reaches.bind (Sim.Reaches.draw d) (Sim.Reaches.pure _)

theorem nkFill_uses {c : Nat} {g : Sim K} (hg : Sim.Uses c g) (l : List K) : Sim.Uses ((l.length - 0) * (c + 0)) (nkFill g l) :=
  Sim.Uses.forRange fun _ _ => hg.bind fun _ => Sim.Uses.lift

theorem vectorGenerate_uses [Zero K] {c : Nat} {g : Sim K} (hg : Sim.Uses c g) (n : Nat) : ∃ d, Sim.Uses d (vectorGenerate g n) :=
  ⟨_, Sim.Uses.bind Sim.Uses.lift fun _ => nkFill_uses hg _⟩

theorem ising1Generate_uses [Zero K] {c d : Nat} {g h : Sim K} (hg : Sim.Uses c g) (hh : Sim.Uses d h) (n : Nat) :
    ∃ e, Sim.Uses e (ising1Generate g h n) :=
  ⟨_, Sim.Uses.bind Sim.Uses.lift fun _ => Sim.Uses.forRange fun _ _ => hg.bind fun _ => Sim.Uses.lift.bind fun _ => hh.bind fun _ =>
    Sim.Uses.lift.bind fun _ => Sim.Uses.pure⟩

theorem ising2Generate_uses [Zero K] {c d : Nat} {g h : Sim K} (hg : Sim.Uses c g) (hh : Sim.Uses d h) (rows columns : Nat) :
    ∃ e, Sim.Uses e (ising2Generate g h rows columns) :=
  ⟨_, Sim.Uses.bind Sim.Uses.lift fun _ => Sim.Uses.bind Sim.Uses.lift fun _ => Sim.Uses.forRange fun _ _ => Sim.Uses.forRange fun _ _ =>
    hg.bind fun _ => Sim.Uses.lift.bind fun _ => hg.bind fun _ => Sim.Uses.lift.bind fun _ => hh.bind fun _ =>
    Sim.Uses.lift.bind fun _ => Sim.Uses.pure⟩

theorem walshGenerate_uses [Zero K] {c : Nat} {g : Sim K} (hg : Sim.Uses c g) (n k : Nat) : ∃ d, Sim.Uses d (walshGenerate g n k) :=
  ⟨_, Sim.Uses.bind Sim.Uses.lift fun _ => Sim.Uses.bind Sim.Uses.lift fun _ => Sim.Uses.forRange fun _ _ =>
    (bvRandomBits_uses n).bind fun _ => hg.bind fun _ => Sim.Uses.lift⟩

theorem walsh2Resize_length [Zero K] {n : Nat} {f : List K × List (List K)} (h : walsh2Resize n = ok f) :
    f.1.length = n ∧ f.2.length = n := by
  by_cases hn : 0 < n
  · rw [walsh2Resize_eq hn] at h
    cases h
    simp
  · unfold walsh2Resize at h
    rw [assert_neg (by simpa using hn)] at h
    cases h

theorem walsh2Generate_uses [Zero K] {c d : Nat} {g h : Sim K} (hg : Sim.Uses c g) (hh : Sim.Uses d h) (n : Nat) :
    ∃ e, Sim.Uses e (walsh2Generate g h n) := by
  refine ⟨_, Sim.Uses.bind Sim.Uses.lift fun _ => Sim.Uses.bindP Sim.Uses.lift (Sim.PostOk.lift fun f hf => walsh2Resize_length hf)
    fun f hf => Sim.Uses.mono (c := (n - 0) * (c + 0) + ((n - 1) * (n * (d + 0)) + 0)) ?_ (Nat.le_refl _)⟩
  have h1 := nkFill_uses hg f.1
  rw [hf.1] at h1
  refine h1.bind fun _ => Sim.Uses.bind ?_ fun _ => Sim.Uses.pure
  rw [hf.2]
  refine forRange_usesI (fun i t hi => ?_) _
  refine Sim.Uses.mono (Sim.Uses.forRange fun j t => hh.bind fun _ => Sim.Uses.lift) ?_
  exact Nat.mul_le_mul_right _ (by omega)

/-- Each row drawn from has the size given by `random_structure`. -/
theorem nkStructure_partials [Zero K] (n k : Nat) : Sim.PostOk (nkStructure n k (nkNew : Nk K)) (fun f => f.partials.length = n ∧
    ∀ p ∈ f.partials, p.length = 2 ^ (k + 1)) := by
  refine Sim.PostOk.assert.bind fun _ _ => Sim.PostOk.assert.bind fun _ _ => Sim.PostOk.assert.bind fun _ _ =>
    (Sim.PostOk.trivial _).bind fun _ _ => Sim.PostOk.pure ?_
  simp only [nkNew, vresize_nil, Int.toNat_natCast, List.length_replicate, true_and]
  intro p hp
  rw [List.eq_of_mem_replicate hp, List.length_replicate]
  congr 1

theorem nkSite_uses (length i : Nat) (neighbors : List (List Nat)) :
    Sim.Uses (0 + (0 + (0 + ((length - 0) * (0 + 2) + (0 + 0))))) (nkSite length i neighbors) := by
  refine Sim.Uses.lift.bind fun _ => Sim.Uses.lift.bind fun _ => Sim.Uses.lift.bind fun _ =>
    Sim.Uses.bind (Sim.Uses.forRange fun j s => ?_) fun _ => Sim.Uses.lift.bind fun _ => Sim.Uses.lift
  unfold nkNeighbor
  refine Sim.Uses.ite (Sim.Uses.pure.mono (Nat.zero_le _)) (Sim.Uses.ite (Sim.Uses.pure.mono (Nat.zero_le _)) ?_)
  refine Sim.Uses.lift.bind fun _ => Sim.Uses.bind (d := 0) (Sim.Uses.bind (d := 1) Sim.Uses.draw fun _ =>
    Sim.Uses.bind (d := 0) Sim.Uses.draw fun _ => Sim.Uses.pure) fun _ => ?_
  exact Sim.Uses.ite (Sim.Uses.bind (d := 0) Sim.Uses.lift fun _ => Sim.Uses.pure) Sim.Uses.pure

theorem nkGenerate_uses [Zero K] {c : Nat} {g : Sim K} (hg : Sim.Uses c g) (n k : Nat) :
    ∃ d, Sim.Uses d (nkGenerate g n k (nkNew : Nk K)) := by
  have h1 : ∃ d, Sim.Uses d (nkStructure n k (nkNew : Nk K)) :=
    ⟨_, Sim.Uses.bind Sim.Uses.lift fun _ => Sim.Uses.bind Sim.Uses.lift fun _ => Sim.Uses.bind Sim.Uses.lift fun _ =>
      Sim.Uses.bind (Sim.Uses.forRange fun _ _ => nkSite_uses _ _ _) fun _ => Sim.Uses.pure⟩
  obtain ⟨d, h1⟩ := h1
  refine ⟨_, Sim.Uses.bind Sim.Uses.lift fun _ => Sim.Uses.bind Sim.Uses.lift fun _ => h1.bindP (nkStructure_partials n k)
    fun f hf => Sim.Uses.bind (c := n * (0 + (2 ^ (k + 1) * (c + 0) + 0))) ?_ fun _ => Sim.Uses.pure⟩
  unfold Sim.forRange
  rw [hf.1, Nat.sub_zero]
  refine Sim.Uses.forLoopP (fun t : List (List K) => ∀ p ∈ t, p.length = 2 ^ (k + 1)) (fun j t ht => ?_) (fun j t ht => ?_) _ _ _ hf.2
  · refine Sim.Uses.lift.bindP (P := fun row => row.length = 2 ^ (k + 1)) (Sim.PostOk.lift fun row hr => ?_) fun row hr => ?_
    · exact ht row (vget_mem hr)
    · have := nkFill_uses hg row
      rw [hr, Nat.sub_zero] at this
      exact this.bind fun _ => Sim.Uses.lift
  · refine Sim.PostOk.bind (P := fun row => row.length = 2 ^ (k + 1)) (Sim.PostOk.lift fun row hr => ht row (vget_mem hr))
      fun row hr => ?_
    refine Sim.PostOk.bind (P := fun r => r.length = 2 ^ (k + 1)) ?_ fun r hr' => Sim.PostOk.lift fun t' h p hp => ?_
    · refine (Sim.PostOk.forRange (fun _ (r : List K) => r.length = 2 ^ (k + 1)) (Nat.zero_le _) hr ?_).mono fun _ h => h
      intro i r _ _ h
      refine (Sim.PostOk.trivial _).bind fun v _ => Sim.PostOk.lift fun r' e => ?_
      by_cases hi : i < r.length
      · rw [vset_eq hi] at e
        cases e
        simpa using h
      · rw [vset_ub (by omega)] at e
        cases e
    · rcases vset_mem h hp with h' | rfl
      · exact ht p h'
      · exact hr'

end

theorem maxSatRandom_uses {D : Type} [LT D] [DecidableLT D] (ratio uniform : Nat → Nat → D)
    (hu : ∀ d n j, 0 < n → uniform d j < ratio n n) (n k c : Nat) (hk : k ≤ n) :
    ∃ e, Sim.Uses e (maxSatRandom ratio uniform n k c) := by
  refine ⟨_, Sim.Uses.bind Sim.Uses.lift fun _ => Sim.Uses.bind Sim.Uses.lift fun _ => Sim.Uses.bind Sim.Uses.lift fun _ =>
    Sim.Uses.bind Sim.Uses.lift fun _ => Sim.Uses.bind (Sim.Uses.forLoopP (c := 1 + 0 + (0 + ((n - 0) * (0 + (1 + (0 + 0))) +
      (0 + (0 + 0))))) (fun st : List (List Int) × BV => st.2.length = n) ?_ ?_ _ _ _ (by simp)) fun _ => Sim.Uses.pure⟩
  · intro j st hst
    refine Sim.Uses.bindP (Sim.Uses.bind Sim.Uses.draw fun _ => Sim.Uses.lift)
      (Post_bvRandomSim ratio uniform hu st.2 k (by omega)).toOk fun x hx => Sim.Uses.bind Sim.Uses.lift fun clause => ?_
    have := randomLiterals_uses x clause
    rw [hx.1, hst] at this
    exact this.bind fun _ => Sim.Uses.lift.bind fun _ => Sim.Uses.lift.bind fun _ => Sim.Uses.pure
  · intro j st hst
    refine (Post_bvRandomSim ratio uniform hu st.2 k (by omega)).toOk.bind fun x hx => ?_
    exact (Sim.PostOk.trivial _).bind fun _ _ => (Sim.PostOk.trivial _).bind fun _ _ => (Sim.PostOk.trivial _).bind fun _ _ =>
      (Sim.PostOk.trivial _).bind fun _ _ => Sim.PostOk.pure (hx.1.trans hst)

theorem permutationRandom_uses (n : Nat) : Sim.Uses (0 + 1) (permutationRandom n) := Sim.Uses.bind Sim.Uses.lift fun _ => Sim.Uses.shuffle

theorem linearRandom_uses (n m : Nat) : ∃ c, Sim.Uses c (linearRandom n m false) :=
  ⟨_, Sim.Uses.bind Sim.Uses.lift fun _ => Sim.Uses.bind Sim.Uses.lift fun _ => bmRandom_uses n m⟩

theorem affineRandom_uses (n m : Nat) : ∃ c, Sim.Uses c (affineRandom n m false) :=
  (linearRandom_uses n m).elim fun _ h => ⟨_, h.bind fun _ => (bvRandomBits_uses n).bind fun _ => Sim.Uses.lift.bind fun _ => Sim.Uses.pure⟩

/-! ## The loops which compare -/

theorem compareValues_post {V : Type} [DecidableEq V] {n : Nat} {f : BV → Outcome V} (h : ∀ x : BV, x.length = n → ∃ v, f x = ok v)
    (inner : Nat) : Sim.Post (compareValues inner n f f) (fun b => b = true) := by
  refine every_post ((bvRandomBits_post n).bind fun x hx => ?_) inner
  obtain ⟨v, hv⟩ := h x hx
  refine (Sim.Post.lift (P := fun a => a = v) ⟨v, hv, rfl⟩).bind fun a ha => ?_
  refine (Sim.Post.lift (P := fun a => a = v) ⟨v, hv, rfl⟩).bind fun b hb => ?_
  rw [ha, hb, if_neg (by simp)]
  exact Sim.Post.pure rfl

theorem compareValues_uses {V : Type} [DecidableEq V] (inner n : Nat) (f g : BV → Outcome V) :
    Sim.Uses (inner * (n + (0 + (0 + 0)))) (compareValues inner n f g) :=
  every_uses ((bvRandomBits_uses n).bind fun _ => Sim.Uses.lift.bind fun _ => Sim.Uses.lift.bind fun _ =>
    Sim.Uses.ite Sim.Uses.pure Sim.Uses.pure) inner

theorem compareMaps_post {n m : Nat} {f : BV → BV → Outcome BV} {g : BV → BV} (h : MapSpec.Computes f n m g) :
    ∀ (inner : Nat) (y1 y2 : BV), y1.length = m → y2.length = m → Sim.Post (compareMaps n f f inner y1 y2) (fun b => b = true)
  | 0, _, _, _, _ => Sim.Post.pure rfl
  | inner + 1, y1, y2, h1, h2 => by
    refine (bvRandomBits_post n).bind fun x hx => ?_
    refine (Sim.Post.lift (P := fun y => y = g x) ⟨_, (h x y1 hx h1).1, rfl⟩).bind fun z1 e1 => ?_
    refine (Sim.Post.lift (P := fun y => y = g x) ⟨_, (h x y2 hx h2).1, rfl⟩).bind fun z2 e2 => ?_
    rw [e1, e2, if_neg (by simp)]
    exact compareMaps_post h inner _ _ (h x y1 hx h1).2 (h x y1 hx h1).2

theorem compareMaps_uses (n : Nat) (f g : BV → BV → Outcome BV) :
    ∀ (inner : Nat) (y1 y2 : BV), Sim.Uses (inner * n) (compareMaps n f g inner y1 y2)
  | 0, _, _ => by rw [Nat.zero_mul]; exact Sim.Uses.pure
  | inner + 1, y1, y2 => by
    rw [Nat.succ_mul, Nat.add_comm]
    have h : Sim.Uses (n + (0 + (0 + inner * n))) (compareMaps n f g (inner + 1) y1 y2) :=
      (bvRandomBits_uses n).bind fun _ => Sim.Uses.lift.bind fun _ => Sim.Uses.lift.bind fun _ =>
        Sim.Uses.ite (Sim.Uses.pure.mono (Nat.zero_le _)) (compareMaps_uses n f g inner _ _)
    exact h.mono (by omega)

theorem compareMaps_flows (n : Nat) (f g : BV → BV → Outcome BV) :
    ∀ (inner : Nat) (y1 y2 : BV), Sim.Flows (compareMaps n f g inner y1 y2)
  | 0, _, _ => Sim.Flows.pure _
  | inner + 1, _, _ => (bvRandomBits_flows n).bind fun _ => (Sim.Flows.lift _).bind fun _ => (Sim.Flows.lift _).bind fun _ =>
      Sim.Flows.ite (Sim.Flows.pure _) (compareMaps_flows n f g inner _ _)

theorem load_post {K α : Type} {save : α → List (Tok K)} {load : Reader K α} {x : α} (h : RoundTrip save load x) :
    Sim.Post (Sim.lift (load (save x))) (fun r => r.1 = x) := by
  have := h []
  rw [List.append_nil] at this
  exact Sim.Post.lift ⟨_, this, rfl⟩

/-! ## Functions -/

section
variable {K : Type} [Field K] [LinearOrder K] [IsStrictOrderedRing K]

theorem linear_total (w : List K) (x : BV) (hx : x.length = w.length) : ∃ v, (linearFunction w).eval x = ok v := by
  obtain ⟨n, hn⟩ : ∃ n, w.length = n := ⟨_, rfl⟩
  obtain ⟨w, rfl⟩ := exists_ofFn w hn
  rw [hn] at hx
  obtain ⟨x, rfl⟩ := exists_ofFn x hx
  exact ⟨_, linear_value w x⟩

/-- C101: the tests of the serialization of linear functions end with the status 0. -/
theorem serializeLinearTest_ends (g : Nat → K) (runs inner size : Nat) (hs : 2 ≤ size) :
    Ends (serializeLinearTest g runs inner size) := by
  have he : serializeLinearTest g runs inner size = every runs (do
      let n ← Sim.uniformInt 2 size
      let src ← vectorGenerate (number g) n
      let dest ← Sim.lift (loadReals (saveReals src))
      compareValues inner n (linearFunction src).eval (linearFunction dest.1).eval) := by
    unfold serializeLinearTest linearGenerate vectorGenerate
    simp only [stdGenerate_unit]
  rw [he]
  refine (succeeds_every ((Sim.Post.uniformInt hs).bind fun n hn => (vectorGenerate_exactly (number_exactly g) (by omega)).1.bind
    fun src hsrc => (load_post (functions_roundTrip.1 src)).bind fun dest hd => ?_) runs).ends (every_bounded
    (Sim.Uses.uniformInt_bind fun n _ _ => (vectorGenerate_uses (number_uses g) n).elim fun _ h => ⟨_, h.bind fun _ => Sim.Uses.lift.bind
      fun _ => compareValues_uses inner n _ _⟩) runs)
  rw [hd]
  exact compareValues_post (fun x hx => linear_total src x (by rw [hx, hsrc.1])) inner

/-- The program, with any way to make a number of a draw, and a short run of it. -/
example : Ends (serializeLinearTest (fun d => (d : Rat) / 7) 10 1000 100) ∧
    exitStatus (serializeLinearTest (fun d => (d : Rat) - 5) 1 2 3) [1, 4, 9, 2, 1, 0, 1, 1, 1, 0] = .ok 0 [] :=
  ⟨serializeLinearTest_ends _ _ _ _ (by norm_num), by decide +kernel⟩

theorem walsh1_total (w : List K) (x : BV) (hx : x.length = w.length) : ∃ v, (walshExpansion1 w).eval x = ok v := by
  obtain ⟨n, hn⟩ : ∃ n, w.length = n := ⟨_, rfl⟩
  obtain ⟨w, rfl⟩ := exists_ofFn w hn
  rw [hn] at hx
  obtain ⟨x, rfl⟩ := exists_ofFn x hx
  exact ⟨_, walsh1_value w x⟩

/-- C101: the test of the serialization of Walsh expansions of degree 1 ends with the status 0. -/
theorem serializeWalsh1Test_ends (g : Nat → K) (runs inner size : Nat) (hs : 2 ≤ size) :
    Ends (serializeWalsh1Test g runs inner size) := by
  refine (succeeds_every ((Sim.Post.uniformInt hs).bind fun n hn => (vectorGenerate_exactly (number_exactly g) (by omega)).1.bind
    fun src hsrc => (load_post (functions_roundTrip.1 src)).bind fun dest hd => ?_) runs).ends (every_bounded
    (Sim.Uses.uniformInt_bind fun n _ _ => (vectorGenerate_uses (number_uses g) n).elim fun _ h => ⟨_, h.bind fun _ => Sim.Uses.lift.bind
      fun _ => compareValues_uses inner n _ _⟩) runs)
  rw [hd]
  exact compareValues_post (fun x hx => walsh1_total src x (by rw [hx, hsrc.1])) inner

example : Ends (serializeWalsh1Test (fun d => (d : Rat) / 7) 10 1000 100) ∧
    exitStatus (serializeWalsh1Test (fun d => (d : Rat) - 5) 1 2 3) [1, 4, 9, 2, 1, 0, 1, 1, 1, 0] = .ok 0 [] :=
  ⟨serializeWalsh1Test_ends _ _ _ _ (by norm_num), by decide +kernel⟩

omit [IsStrictOrderedRing K] in
/-- C101: the test of the serialization of equal products ends with the status 0. -/
theorem serializeEqualProductsTest_ends (g : Nat → K) (runs inner size : Nat) (hs : 2 ≤ size) :
    Ends (serializeEqualProductsTest g runs inner size) := by
  refine (succeeds_every ((Sim.Post.uniformInt hs).bind fun n hn => (vectorGenerate_exactly (number_exactly g) (by omega)).1.bind
    fun src hsrc => (load_post (functions_roundTrip.1 src)).bind fun dest hd => ?_) runs).ends (every_bounded
    (Sim.Uses.uniformInt_bind fun n _ _ => (vectorGenerate_uses (number_uses g) n).elim fun _ h => ⟨_, h.bind fun _ => Sim.Uses.lift.bind
      fun _ => compareValues_uses inner n _ _⟩) runs)
  rw [hd]
  exact compareValues_post (fun x hx => ⟨_, equalProducts_value src x (by rw [hx, hsrc.1])⟩) inner

example : Ends (serializeEqualProductsTest (fun d => (d : Rat) / 7) 10 1000 100) ∧
    exitStatus (serializeEqualProductsTest (fun d => (d : Rat) - 5) 1 2 3) [1, 4, 9, 2, 1, 0, 1, 1, 1, 0] = .ok 0 [] :=
  ⟨serializeEqualProductsTest_ends _ _ _ _ (by norm_num), by decide +kernel⟩

omit [IsStrictOrderedRing K] in
/-- C101: the test of the serialization of nk landscapes ends with the status 0. -/
theorem serializeNkTest_ends (g : Nat → K) (runs inner size order : Nat) (hs : 2 ≤ size) (ho : 1 ≤ order) (ho' : order ≤ 29) :
    Ends (serializeNkTest g runs inner size order) := by
  refine (succeeds_every ((Sim.Post.uniformInt hs).bind fun n hn => (Sim.Post.uniformInt (by omega)).bind fun k hk =>
    (nkGenerate_valid (number_exactly g).1 (by omega) (by omega) (by omega)).bind
    fun src hsrc => (load_post (functions_roundTrip.2.2.1 src)).bind fun dest hd => ?_) runs).ends (every_bounded
    (Sim.Uses.uniformInt_bind fun n _ _ => Sim.Uses.uniformInt_bind fun k _ _ => (nkGenerate_uses (number_uses g) n k).elim fun _ h =>
      ⟨_, h.bind fun _ => Sim.Uses.lift.bind fun _ => compareValues_uses inner n _ _⟩) runs)
  rw [hd]
  exact compareValues_post (fun x hx => (nkEval_spec hsrc.1 (by omega) hx).elim fun _ h => ⟨_, h.1⟩) inner

example : Ends (serializeNkTest (fun d => (d : Rat) / 7) 10 1000 100 10) ∧ exitStatus (serializeNkTest (fun d => (d : Rat) - 5) 1 1 2 1)
      [1, 0, 3, 1, 2, 0, 1, 1, 4, 0, 1, 3, 0, 1, 1, 2] = .ok 0 [] :=
  ⟨serializeNkTest_ends _ _ _ _ _ (by norm_num) (by norm_num) (by norm_num), by decide +kernel⟩

omit [IsStrictOrderedRing K] in
/-- C101: the test of the serialization of one-dimensional Ising models ends with the status 0. -/
theorem serializeIsing1Test_ends (g : Nat → K) (runs inner size : Nat) (hs : 1 ≤ size) :
    Ends (serializeIsing1Test g runs inner size) := by
  refine (succeeds_every ((Sim.Post.uniformInt hs).bind fun n hn => (ising1Generate_exactly (number_exactly g) (number_exactly g)
    hn.1).1.bind fun src hsrc => (load_post (functions_roundTrip.2.2.2.1 src)).bind fun dest hd => ?_) runs).ends (every_bounded
    (Sim.Uses.uniformInt_bind fun n _ _ => (ising1Generate_uses (number_uses g) (number_uses g) n).elim fun _ h =>
      ⟨_, h.bind fun _ => Sim.Uses.lift.bind fun _ => compareValues_uses inner n _ _⟩) runs)
  rw [hd]
  exact compareValues_post (fun x hx => ⟨_, ising1_value src n hn.1 hsrc.couplings hsrc.fields x hx⟩) inner

example : Ends (serializeIsing1Test (fun d => (d : Rat) / 7) 10 1000 100) ∧ exitStatus (serializeIsing1Test (fun d => (d : Rat) - 5) 1 1 3)
      [1, 0, 3, 1, 2, 0, 1] = .ok 0 [] :=
  ⟨serializeIsing1Test_ends _ _ _ _ (by norm_num), by decide +kernel⟩

omit [IsStrictOrderedRing K] in
/-- C101: the test of the serialization of two-dimensional Ising models ends with the status 0. -/
theorem serializeIsing2Test_ends (g : Nat → K) (runs inner rows columns : Nat) (hr : 1 ≤ rows) (hc : 1 ≤ columns) :
    Ends (serializeIsing2Test g runs inner rows columns) := by
  refine (succeeds_every ((Sim.Post.uniformInt hr).bind fun r hr => (Sim.Post.uniformInt hc).bind fun c hc =>
    (ising2Generate_exactly (number_exactly g) (number_exactly g) hr.1 hc.1).1.bind fun src hsrc =>
    (load_post (functions_roundTrip.2.2.2.2.1 src)).bind fun dest hd => ?_) runs).ends (every_bounded
    (Sim.Uses.uniformInt_bind fun r _ _ => Sim.Uses.uniformInt_bind fun c _ _ =>
      (ising2Generate_uses (number_uses g) (number_uses g) r c).elim fun _ h =>
      ⟨_, h.bind fun _ => Sim.Uses.lift.bind fun _ => compareValues_uses inner (r * c) _ _⟩) runs)
  rw [hd]
  exact compareValues_post (fun x hx => ⟨_, ising2_value src r c hr.1 hc.1 hsrc.rights hsrc.belows hsrc.fields x hx⟩) inner

example : Ends (serializeIsing2Test (fun d => (d : Rat) / 7) 10 1000 100 100) ∧ exitStatus (serializeIsing2Test (fun d => (d : Rat) - 5) 1 1 2 2)
      [1, 0, 3, 1, 2, 0, 1, 1, 4, 0] = .ok 0 [] :=
  ⟨serializeIsing2Test_ends _ _ _ _ _ (by norm_num) (by norm_num), by decide +kernel⟩

omit [IsStrictOrderedRing K] in
/-- C101: the test of the serialization of Walsh expansions ends with the status 0. -/
theorem serializeWalshTest_ends (g : Nat → K) (runs inner size : Nat) (hs : 1 ≤ size) :
    Ends (serializeWalshTest g runs inner size) := by
  refine (succeeds_every ((Sim.Post.uniformInt hs).bind fun n hn => (Sim.Post.uniformInt hs).bind fun k hk =>
    (walshGenerate_exactly (number_exactly g) hn.1 hk.1).1.bind fun src hsrc =>
    (load_post (functions_roundTrip.2.2.2.2.2.1 src)).bind fun dest hd => ?_) runs).ends (every_bounded
    (Sim.Uses.uniformInt_bind fun n _ _ => Sim.Uses.uniformInt_bind fun k _ _ =>
      (walshGenerate_uses (number_uses g) n k).elim fun _ h =>
      ⟨_, h.bind fun _ => Sim.Uses.lift.bind fun _ => compareValues_uses inner n _ _⟩) runs)
  rw [hd]
  exact compareValues_post (fun x hx => ⟨_, walshExpansionEval_eq src x fun t ht => ((hsrc.2 t ht).1).trans hx.symm⟩) inner

example : Ends (serializeWalshTest (fun d => (d : Rat) / 7) 10 1000 100) ∧ exitStatus (serializeWalshTest (fun d => (d : Rat) - 5) 1 1 3)
      [1, 0, 3, 1, 2, 0, 1] = .ok 0 [] :=
  ⟨serializeWalshTest_ends _ _ _ _ (by norm_num), by decide +kernel⟩

omit [IsStrictOrderedRing K] in
/-- C101: the test of the serialization of Walsh expansions of degree 2 ends with the status 0. -/
theorem serializeWalsh2Test_ends (g : Nat → K) (runs inner size : Nat) (hs : 2 ≤ size) :
    Ends (serializeWalsh2Test g runs inner size) := by
  refine (succeeds_every ((Sim.Post.uniformInt hs).bind fun n hn => (walsh2Generate_exactly (number_exactly g) (number_exactly g)
    (by omega)).1.bind fun src hsrc => (load_post (functions_roundTrip.2.2.2.2.2.2 src)).bind fun dest hd => ?_) runs).ends
    (every_bounded (Sim.Uses.uniformInt_bind fun n _ _ => (walsh2Generate_uses (number_uses g) (number_uses g) n).elim fun _ h =>
      ⟨_, h.bind fun _ => Sim.Uses.lift.bind fun _ => compareValues_uses inner n _ _⟩) runs)
  rw [hd]
  obtain ⟨⟨h1, -⟩, h2, -⟩ := hsrc
  refine compareValues_post (fun x hx => ⟨_, walshExpansion2_value src.1 src.2 n x h1 ?_ hx fun i line hl => ?_⟩) inner
  · simpa using congrArg List.length h2
  · have h := congrArg (fun l => l[i]?) h2
    simp only [List.getElem?_map, hl, Option.map_some] at h
    exact ((List.getElem?_range (by
      by_contra hi
      rw [List.getElem?_eq_none (by simpa using hi)] at h
      cases h)).symm.trans h.symm |> Option.some.inj).symm

example : Ends (serializeWalsh2Test (fun d => (d : Rat) / 7) 10 1000 100) ∧ exitStatus (serializeWalsh2Test (fun d => (d : Rat) - 5) 1 1 3)
      [1, 0, 3, 1, 2, 0, 1, 1, 4, 0] = .ok 0 [] :=
  ⟨serializeWalsh2Test_ends _ _ _ _ (by norm_num), by decide +kernel⟩

end

/-- C101: the test of the serialization of partitions ends with the status 0. -/
theorem serializePartitionTest_ends (K : Type) (runs inner size : Nat) (hs : 1 ≤ size) :
    Ends (serializePartitionTest K runs inner size) := by
  refine (succeeds_every ((Sim.Post.uniformInt hs).bind fun n hn => (Sim.Post.uniformInt hs).bind fun u hu =>
    Sim.Post.bind (P := fun src => src.length = n) ?_ fun src hsrc => (load_post (functions_roundTrip.2.1 src)).bind
      fun dest hd => ?_) runs).ends
    (every_bounded (Sim.Uses.uniformInt_bind fun n _ _ => Sim.Uses.uniformInt_bind fun u _ _ =>
      (vectorGenerate_uses (K := Int) (Sim.Uses.bind (Sim.Uses.uniformInt (lo := 1) (hi := u)) fun d =>
        Sim.Uses.pure (a := (d : Int))) n).elim fun _ h =>
      ⟨_, Sim.Uses.bind (Sim.Uses.bind Sim.Uses.lift fun _ => Sim.Uses.bind Sim.Uses.lift fun _ => h) fun _ =>
        Sim.Uses.lift.bind fun _ => compareValues_uses inner n _ _⟩) runs)
  · refine (Sim.Post.assert (decide_eq_true hn.1)).bind fun _ _ => (Sim.Post.assert (decide_eq_true hu.1)).bind fun _ _ => ?_
    refine (Sim.Post.assert (decide_eq_true hn.1)).bind fun _ _ => ?_
    rw [vresize_nil]
    refine (Sim.Post.forRange (fun _ (r : List Int) => r.length = n) (Nat.zero_le _) (by simp) ?_).mono fun _ h => h
    intro j r _ hj hr
    refine Sim.Post.bind (P := fun _ => True) ((Sim.Post.uniformInt hu.1).bind fun d _ => Sim.Post.pure trivial) fun v _ => ?_
    exact Sim.Post.lift ⟨_, vset_eq (by simpa [hr] using hj), by simpa using hr⟩
  · rw [hd]
    exact compareValues_post (fun x hx => ⟨_, partition_value src x (by rw [hx, hsrc])⟩) inner

example : Ends (serializePartitionTest Rat 10 1000 100) ∧ exitStatus (serializePartitionTest Rat 1 1 3)
      [1, 0, 3, 1, 2, 0] = .ok 0 [] :=
  ⟨serializePartitionTest_ends _ _ _ _ (by norm_num), by decide +kernel⟩

/-- C101: the test of the serialization of MaxSat instances ends with the status 0. -/
theorem serializeMaxSatTest_ends {D : Type} [LT D] [DecidableLT D] (ratio uniform : Nat → Nat → D)
    (hu : ∀ d n j, 0 < n → uniform d j < ratio n n) (runs inner size k c : Nat) (hk : 0 < k) (hs : k ≤ size)
    (hsize : size ≤ 2147483647) (hc : 0 < c) (hc' : c ≤ 2147483647) :
    Ends (serializeMaxSatTest ratio uniform runs inner size k c) := by
  refine (succeeds_every ((Sim.Post.uniformInt hs).bind fun n hn => (maxSatRandom_instance ratio uniform hu n k c hk hc hn.1).bind
    fun src hsrc => ?_) runs).ends
    (every_bounded (Sim.Uses.uniformInt_bind fun n hn _ => (maxSatRandom_uses ratio uniform hu n k c hn).elim fun _ h =>
      ⟨_, h.bind fun src => Sim.Uses.mono (c := 0 + inner * (n + (0 + (0 + 0)))) ?_ (Nat.le_refl _)⟩) runs)
  · have h := cnf_roundtrip n src (by omega) (by omega) (by rintro rfl; simp [IsInstance] at hsrc; omega) (by rw [hsrc.1]; exact hc')
      (by simpa using hsrc.2.1)
    rw [h]
    refine (Sim.Post.lift (P := fun r => r.2 = src) ⟨_, rfl, rfl⟩).bind fun dest hd => ?_
    rw [hd]
    exact compareValues_post (fun x hx => ⟨_, maxSat_value src x (by rw [hx]; exact hsrc.2.1)⟩) inner
  · split
    · exact Sim.Uses.pure.mono (Nat.zero_le _)
    · exact Sim.Uses.lift.bind fun _ => compareValues_uses inner n _ _

example : Ends (serializeMaxSatTest (fun a b => a * 3 / b) (fun _ _ => 1) 10 1000 100 3 100) ∧
    exitStatus (serializeMaxSatTest (fun a b => a * 3 / b) (fun _ _ => 1) 1 1 3 2 2) [1, 0, 3, 1, 2, 0, 1, 1, 4, 0] = .ok 0 [] :=
  ⟨serializeMaxSatTest_ends _ _ (fun _ n _ h => by
    change 1 < n * 3 / n
    rw [Nat.mul_div_cancel_left _ h]
    norm_num) _ _ _ _ _ (by norm_num) (by norm_num) (by norm_num) (by norm_num) (by norm_num), by decide +kernel⟩

/-! ## Maps -/

/-- C101: the test of the serialization of translations ends with the status 0. -/
theorem serializeTranslationTest_ends (K : Type) (runs inner size : Nat) (hs : 2 ≤ size) :
    Ends (serializeTranslationTest K runs inner size) := by
  refine (succeeds_every ((Sim.Post.uniformInt hs).bind fun n hn => (translationRandom_post (by omega)).bind
    fun src hsrc => (load_post (maps_roundTrip.1 src)).bind fun dest hd => ?_) runs).ends
    (every_bounded (Sim.Uses.uniformInt_bind fun n _ _ => ⟨_, (translationRandom_uses n).bind fun _ => Sim.Uses.lift.bind fun _ =>
      compareMaps_uses n _ _ inner _ _⟩) runs)
  rw [hd]
  exact compareMaps_post (translationMap_correct src n hsrc).1 inner _ _ (by simp) (by simp)

example : Ends (serializeTranslationTest Rat 10 1000 100) ∧ exitStatus (serializeTranslationTest Rat 1 1 3)
      [1, 0, 3, 1, 2, 0, 1] = .ok 0 [] :=
  ⟨serializeTranslationTest_ends _ _ _ _ (by norm_num), by decide +kernel⟩

/-- C101: the test of the serialization of permutations ends with the status 0. -/
theorem serializePermutationTest_ends (K : Type) (runs inner size : Nat) (hs : 2 ≤ size) :
    Ends (serializePermutationTest K runs inner size) := by
  refine (succeeds_every ((Sim.Post.uniformInt hs).bind fun n hn => (permutationRandom_post (by omega)).bind
    fun src hsrc => ?_) runs).ends
    (every_bounded (Sim.Uses.uniformInt_bind fun n _ _ => ⟨_, (permutationRandom_uses n).bind fun _ => Sim.Uses.lift.bind fun _ =>
      compareMaps_uses n _ _ inner _ _⟩) runs)
  have hp : src.Perm ((List.range src.length).map Int.ofNat) := by
    obtain ⟨b, e, h⟩ := permIsValid_correct src
    rw [hsrc.2] at e
    exact h.mp (Outcome.ok.inj e).symm
  refine (load_post (maps_roundTrip.2.1 src hp)).bind fun dest hd => ?_
  rw [hd]
  have h := permutationMap_computes src hp
  rw [hsrc.1] at h
  exact compareMaps_post h inner _ _ (by simp) (by simp)

example : Ends (serializePermutationTest Rat 10 1000 100) ∧ exitStatus (serializePermutationTest Rat 1 1 3)
      [1, 0, 3, 1, 2] = .ok 0 [] :=
  ⟨serializePermutationTest_ends _ _ _ _ (by norm_num), by decide +kernel⟩

/-- C101: the test of the serialization of linear maps ends with the status 0. -/
theorem serializeLinearMapTest_ends (K : Type) (runs inner size : Nat) (hs : 2 ≤ size) :
    Ends (serializeLinearMapTest K runs inner size) := by
  refine (succeeds_every ((Sim.Post.uniformInt hs).bind fun n hn => (Sim.Post.uniformInt hs).bind fun m hm =>
    (linearRandom_post (surjective := false) (by omega) (by omega) (by simp)).bind fun src hsrc =>
    (load_post (maps_roundTrip.2.2.1 src n m (by omega) (by omega) hsrc.1)).bind fun dest hd => ?_) runs).ends
    (every_bounded (Sim.Uses.uniformInt_bind fun n _ _ => Sim.Uses.uniformInt_bind fun m _ _ => (linearRandom_uses n m).elim
      fun _ h => ⟨_, h.bind fun _ => Sim.Uses.lift.bind fun _ => compareMaps_uses m _ _ inner _ _⟩) runs)
  rw [hd]
  exact compareMaps_post (linearMap_spec n m (by omega) (by omega) src hsrc.1) inner _ _ (by simp) (by simp)

example : Ends (serializeLinearMapTest Rat 10 1000 100) ∧ exitStatus (serializeLinearMapTest Rat 1 1 3)
      [1, 0, 3, 1, 2, 0, 1, 1, 4, 0] = .ok 0 [] :=
  ⟨serializeLinearMapTest_ends _ _ _ _ (by norm_num), by decide +kernel⟩

/-- C101: the test of the serialization of affine maps ends with the status 0. -/
theorem serializeAffineMapTest_ends (K : Type) (runs inner size : Nat) (hs : 2 ≤ size) :
    Ends (serializeAffineMapTest K runs inner size) := by
  refine (succeeds_every ((Sim.Post.uniformInt hs).bind fun n hn => (Sim.Post.uniformInt hs).bind fun m hm =>
    (affineRandom_post (surjective := false) (by omega) (by omega) (by simp)).bind fun src hsrc =>
    (load_post (maps_roundTrip.2.2.2.1 src.1 src.2 n m (by omega) (by omega) hsrc.1 hsrc.2)).bind fun dest hd => ?_) runs).ends
    (every_bounded (Sim.Uses.uniformInt_bind fun n _ _ => Sim.Uses.uniformInt_bind fun m _ _ => (affineRandom_uses n m).elim
      fun _ h => ⟨_, h.bind fun _ => Sim.Uses.lift.bind fun _ => compareMaps_uses m _ _ inner _ _⟩) runs)
  rw [hd]
  exact compareMaps_post (affineMap_spec n m (by omega) (by omega) src.1 hsrc.1 src.2 hsrc.2) inner _ _ (by simp) (by simp)

example : Ends (serializeAffineMapTest Rat 10 1000 100) ∧ exitStatus (serializeAffineMapTest Rat 1 1 3)
      [1, 0, 3, 1, 2, 0, 1, 1, 4, 0, 1, 3, 0] = .ok 0 [] :=
  ⟨serializeAffineMapTest_ends _ _ _ _ (by norm_num), by decide +kernel⟩

/-- C101: whatever the test of the serialization of sequences of transvections has drawn, it has ended with the status 0, or can
still do so. -/
theorem serializeTsAffineMapTest_lives (K : Type) (runs inner size len : Nat) (hs : 2 ≤ size) (hl : 1 ≤ len) :
    Lives (serializeTsAffineMapTest K runs inner size len) := by
  refine lives_every (succeeds_every ((Sim.Post.uniformInt hs).bind fun n hn => (Sim.Post.uniformInt hl).bind fun t ht =>
    (tsAffineRandom_unconstrained ⟨[], []⟩ t (by omega)).bind fun src hsrc => ?_) runs)
    ((Sim.Flows.uniformInt _ _).bindP (Sim.Post.uniformInt hs).toOk fun n hn => (Sim.Flows.uniformInt _ _).bind fun t =>
      (tsAffineRandom_flows (by omega) _ t).bind fun _ => (Sim.Flows.lift _).bind fun _ => compareMaps_flows n _ _ inner _ _)
  have hv : ∀ t ∈ src.ts, t.row < src.bv.length ∧ t.col < src.bv.length ∧ t.row ≠ t.col := by
    intro t ht
    have h := hsrc.2
    simp only [tsIsValidN, List.all_eq_true] at h
    have := h t ht
    unfold tvIsValidN at this
    split_ifs at this with h1 h2 h3
    rw [hsrc.1]
    exact ⟨by omega, by omega, by simpa [tvIsValid] using h1⟩
  refine (load_post (maps_roundTrip.2.2.2.2 src hv)).bind fun dest hd => ?_
  rw [hd]
  exact compareMaps_post (tsAffineMap_computes src n hsrc.1 hsrc.2) inner _ _ (by simp) (by simp)

example : Lives (serializeTsAffineMapTest Rat 10 1000 100 100) ∧ exitStatus (serializeTsAffineMapTest Rat 1 1 3 3)
      [1, 0, 3, 1, 2, 0, 1, 1, 4, 0] = .ok 0 [] :=
  ⟨serializeTsAffineMapTest_lives _ _ _ _ _ (by norm_num) (by norm_num), by decide +kernel⟩

theorem compositionNew_post {n m : Nat} {v : BV} {M : BM} (hv : v.length = n) (hM : F2.HasShape n m M) :
    Sim.Post (Sim.lift (compositionNew (translationObj v) (linearObj M M.length m)))
      (fun o => o = mapComposition (translationObj v) (linearObj M n m) (List.replicate n false)) := by
  refine Sim.Post.lift ⟨_, ?_, rfl⟩
  unfold compositionNew
  rw [assert_pos (by simp [translationObj, linearObj, hv, hM.1]), ok_bind, hM.1]
  rfl

/-- C101: the test of the serialization of compositions ends with the status 0. -/
theorem serializeMapCompositionTest_ends (K : Type) (runs inner size : Nat) (hs : 2 ≤ size) :
    Ends (serializeMapCompositionTest K runs inner size) := by
  refine (succeeds_every ((Sim.Post.uniformInt hs).bind fun n hn => (Sim.Post.uniformInt hs).bind fun m hm =>
    (translationRandom_post (by omega)).bind fun v hv =>
    (linearRandom_post (surjective := false) (by omega) (by omega) (by simp)).bind fun M hM => ?_) runs).ends
    (every_bounded (Sim.Uses.uniformInt_bind fun n _ _ => Sim.Uses.uniformInt_bind fun m _ _ => (linearRandom_uses n m).elim
      fun _ h => ⟨_, (translationRandom_uses n).bind fun _ => h.bind fun _ => Sim.Uses.lift.bind fun _ => Sim.Uses.lift.bind fun _ =>
        Sim.Uses.lift.bind fun _ => Sim.Uses.lift.bind fun _ => compareMaps_uses m _ _ inner _ _⟩) runs)
  refine (Sim.Post.lift (P := fun r => r = (v, saveLinear M)) ⟨_, maps_roundTrip.1 v (saveLinear M), rfl⟩).bind fun v' hv' => ?_
  rw [hv']
  refine (load_post (maps_roundTrip.2.2.1 M n m (by omega) (by omega) hM.1)).bind fun M' hM' => ?_
  rw [hM']
  refine (compositionNew_post hv hM.1).bind fun src hsrc => ?_
  refine (compositionNew_post hv hM.1).bind fun dest hdest => ?_
  rw [hsrc, hdest]
  have ht := (translationMap_correct v n hv).1
  have h := mapComposition_computes (translationObj v) (linearObj M n m) (F2.mulVec M) (fun x => F2.add x v) (List.replicate n false)
    hv (by simp [linearObj]) (linearMap_spec n m (by omega) (by omega) M hM.1) (by simpa [translationObj, hv] using ht)
  have hv2 : (translationObj v).outputSize = n := hv
  rw [hv2] at h
  exact compareMaps_post h inner _ _ (by simp) (by simp)

example : Ends (serializeMapCompositionTest Rat 10 1000 100) ∧ exitStatus (serializeMapCompositionTest Rat 1 1 3)
      [1, 0, 3, 1, 2, 0, 1, 1, 4, 0, 1, 3, 0] = .ok 0 [] :=
  ⟨serializeMapCompositionTest_ends _ _ _ _ (by norm_num), by decide +kernel⟩

end Hnco.Tests
