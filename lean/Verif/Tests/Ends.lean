import Verif.Tests.Props
import Verif.Algorithm.Total

/-! # Test programs which draw a bounded number of times end with the status 0 (C97) -/

namespace Hnco

open Outcome

/-- Given at least `c` draws the computation does not ask for more than `c`. -/
def Sim.Uses {α : Type} (c : Nat) (m : Sim α) : Prop :=
  ∀ ds : List Nat, c ≤ ds.length → match m ds with
    | .ok _ rest => ds.length ≤ rest.length + c
    | .out => False
    | _ => True

namespace Sim

variable {α β : Type}

theorem Uses.pure {a : α} : Uses 0 (pure a : Sim α) := fun ds _ => Nat.le_refl ds.length

theorem Uses.lift {o : Outcome α} : Uses 0 (Sim.lift o) := by
  intro ds _
  cases o <;> simp [Sim.lift]

theorem Uses.draw : Uses 1 Sim.draw := by
  intro ds h
  cases ds with
  | nil => simp at h
  | cons d ds => simp [Sim.draw]

theorem Uses.shuffle {l : List α} : Uses 1 (Sim.shuffle l) := by
  intro ds h
  cases ds with
  | nil => simp at h
  | cons d ds => simp [Sim.shuffle]

theorem Uses.bindP {c d : Nat} {m : Sim α} {f : α → Sim β} {P : α → Prop} (h : Uses c m) (hP : PostOk m P)
    (hf : ∀ a, P a → Uses d (f a)) : Uses (c + d) (m >>= f) := by
  intro ds hds
  have h1 := h ds (by omega)
  change match Sim.bind m f ds with | .ok _ rest => _ | .out => False | _ => True
  unfold Sim.bind
  cases e : m ds with
  | ok a rest =>
    rw [e] at h1
    have h2 := hf a (hP ds a rest e) rest (by simp only at h1; omega)
    simp only at h1 ⊢
    cases e2 : f a rest with
    | ok b rest' => rw [e2] at h2; simp only at h2 ⊢; omega
    | throw _ => trivial
    | ub => trivial
    | out => rw [e2] at h2; exact h2
  | throw _ => trivial
  | ub => trivial
  | out => rw [e] at h1; exact h1

theorem Uses.bind {c d : Nat} {m : Sim α} {f : α → Sim β} (h : Uses c m) (hf : ∀ a, Uses d (f a)) : Uses (c + d) (m >>= f) :=
  h.bindP (PostOk.trivial m) fun a _ => hf a

theorem Uses.mono {c d : Nat} {m : Sim α} (h : Uses c m) (hcd : c ≤ d) : Uses d m := by
  intro ds hds
  have h1 := h ds (by omega)
  cases e : m ds with
  | ok a rest => rw [e] at h1; simp only at h1 ⊢; omega
  | throw _ => trivial
  | ub => trivial
  | out => rw [e] at h1; exact h1

theorem Uses.ite {c : Nat} {p : Prop} [Decidable p] {m m' : Sim α} (h : Uses c m) (h' : Uses c m') :
    Uses c (if p then m else m') := by split <;> assumption

theorem Uses.bernoulli : Uses 1 Sim.bernoulli := Uses.bind Uses.draw fun _ => Uses.pure

theorem Uses.uniformInt {lo hi : Nat} : Uses 1 (Sim.uniformInt lo hi) :=
  Uses.bind (c := 0) Uses.lift fun _ => Uses.bind (d := 0) Uses.draw fun _ => Uses.pure

theorem Uses.forLoop {σ : Type} {c : Nat} {body : Nat → σ → Sim σ} (h : ∀ j t, Uses c (body j t)) :
    ∀ (n i : Nat) (s : σ), Uses (n * c) (Sim.forLoop n i body s)
  | 0, _, _ => by rw [Nat.zero_mul]; exact Uses.pure
  | n + 1, i, s => by
    rw [Nat.succ_mul, Nat.add_comm]
    exact (h i s).bind fun t => Uses.forLoop h n (i + 1) t

theorem Uses.forRange {σ : Type} {c : Nat} {body : Nat → σ → Sim σ} (h : ∀ j t, Uses c (body j t)) {a b : Nat} {s : σ} :
    Uses ((b - a) * c) (Sim.forRange a b body s) := Uses.forLoop h _ _ _

theorem Uses.forLoopP {σ : Type} {c : Nat} {body : Nat → σ → Sim σ} (I : σ → Prop) (h : ∀ j t, I t → Uses c (body j t))
    (hI : ∀ j t, I t → PostOk (body j t) I) : ∀ (n i : Nat) (s : σ), I s → Uses (n * c) (Sim.forLoop n i body s)
  | 0, _, _, _ => by rw [Nat.zero_mul]; exact Uses.pure
  | n + 1, i, s, hs => by
    rw [Nat.succ_mul, Nat.add_comm]
    exact (h i s hs).bindP (hI i s hs) fun t ht => Uses.forLoopP I h hI n (i + 1) t ht

theorem Within.uses {c : Nat} {m : Sim α} {P : α → Prop} (h : Within c m P) : Uses c m := by
  intro ds hds
  obtain ⟨a, rest, e, h1, -⟩ := h ds hds
  rw [e]
  exact h1

theorem Uses.within {c : Nat} {m : Sim α} {P : α → Prop} (h : Uses c m) (hP : Post m P) : Within c m P := by
  intro ds hds
  have h1 := h ds hds
  have h2 := hP ds
  cases e : m ds with
  | ok a rest => rw [e] at h1 h2; exact ⟨a, rest, rfl, h1, h2⟩
  | throw _ => rw [e] at h2; exact h2.elim
  | ub => rw [e] at h2; exact h2.elim
  | out => rw [e] at h1; exact h1.elim

/-- The number drawn is bounded, so that the number of draws of what comes next is, too. -/
theorem Uses.uniformInt_bind {lo hi : Nat} {f : Nat → Sim β} (h : ∀ n, lo ≤ n → n ≤ hi → ∃ c, Uses c (f n)) :
    ∃ c, Uses c (Sim.uniformInt lo hi >>= f) := by
  by_cases hle : lo ≤ hi
  · have hb : ∀ k, ∃ c, ∀ n, lo ≤ n → n ≤ hi → n < k → Uses c (f n) := by
      intro k
      induction k with
      | zero => exact ⟨0, fun n _ _ hn => by omega⟩
      | succ k ih =>
        obtain ⟨c, hc⟩ := ih
        by_cases hk : lo ≤ k ∧ k ≤ hi
        · obtain ⟨d, hd⟩ := h k hk.1 hk.2
          refine ⟨c + d, fun n h1 h2 h3 => ?_⟩
          by_cases e : n = k
          · subst e; exact hd.mono (by omega)
          · exact (hc n h1 h2 (by omega)).mono (by omega)
        · exact ⟨c, fun n h1 h2 h3 => hc n h1 h2 (by
            by_contra hn
            exact hk ⟨by omega, by omega⟩)⟩
    obtain ⟨c, hc⟩ := hb (hi + 1)
    exact ⟨1 + c, Uses.uniformInt.bindP (Post.uniformInt hle).toOk fun n hn => hc n hn.1 hn.2 (by omega)⟩
  · refine ⟨0, fun ds _ => ?_⟩
    have e : (Sim.uniformInt lo hi >>= f) ds = .ub := by
      change Sim.bind (Sim.bind (Sim.lift (assert (decide (lo ≤ hi)))) _) _ ds = _
      rw [assert_neg (by simpa using hle)]
      rfl
    rw [e]
    trivial

end Sim

namespace Tests

set_option maxRecDepth 100000

/-- The program ends with the exit status 0 on any sequence of draws which is long enough: it cannot go on forever. -/
def Ends (check : Sim Bool) : Prop :=
  ∃ c, ∀ ds : List Nat, c ≤ ds.length → ∃ rest, exitStatus check ds = .ok 0 rest

theorem Ends.of_within {check : Sim Bool} {c : Nat} (h : Sim.Within c check (fun b => b = true)) : Ends check := by
  refine ⟨c, fun ds hds => ?_⟩
  have h0 : Sim.Within (c + 0) (exitStatus check) (fun k => k = 0) := by
    refine h.bind fun b hb => ?_
    subst hb
    exact Sim.Within.pure rfl
  obtain ⟨a, rest, e, -, rfl⟩ := h0 ds hds
  exact ⟨rest, e⟩

theorem Succeeds.ends {check : Sim Bool} (h : Succeeds check) (hu : ∃ c, Sim.Uses c check) : Ends check := by
  obtain ⟨c, hu⟩ := hu
  refine ⟨c, fun ds hds => ?_⟩
  have h1 : Sim.Uses (c + 0) (exitStatus check) := hu.bind fun b => Sim.Uses.ite Sim.Uses.pure Sim.Uses.pure
  rcases h ds with h | h
  · exact h
  · have := h1 ds hds
    rw [h] at this
    exact this.elim

theorem every_uses {body : Sim Bool} {c : Nat} (h : Sim.Uses c body) : ∀ runs, Sim.Uses (runs * c) (every runs body)
  | 0 => by rw [Nat.zero_mul]; exact Sim.Uses.pure
  | runs + 1 => by
    rw [Nat.succ_mul, Nat.add_comm]
    exact h.bind fun b => Sim.Uses.ite (every_uses h runs) (Sim.Uses.pure.mono (Nat.zero_le _))

theorem every_bounded {body : Sim Bool} (h : ∃ c, Sim.Uses c body) (runs : Nat) : ∃ c, Sim.Uses c (every runs body) :=
  h.elim fun _ h => ⟨_, every_uses h runs⟩

theorem everyAt_uses {body : Nat → Sim Bool} {c : Nat} (h : ∀ i, Sim.Uses c (body i)) :
    ∀ runs i, Sim.Uses (runs * c) (everyAt body runs i)
  | 0, _ => by rw [Nat.zero_mul]; exact Sim.Uses.pure
  | runs + 1, i => by
    rw [Nat.succ_mul, Nat.add_comm]
    exact (h i).bind fun b => Sim.Uses.ite (everyAt_uses h runs (i + 1)) (Sim.Uses.pure.mono (Nat.zero_le _))

theorem bvRandomBits_uses (n : Nat) : Sim.Uses n (bvRandomBits n) := (bvRandomBits_within n).uses

theorem bmRandom_uses (r c : Nat) : Sim.Uses (0 + (0 + (r - 0) * ((c - 0) * 1 + 0))) (bmRandom r c) :=
  Sim.Uses.bind Sim.Uses.lift fun _ => Sim.Uses.bind Sim.Uses.lift fun _ => Sim.Uses.forRange fun _ _ =>
    Sim.Uses.bind (Sim.Uses.forRange fun _ _ => Sim.Uses.bind (d := 0) Sim.Uses.bernoulli fun _ => Sim.Uses.pure) fun _ => Sim.Uses.pure

theorem translationRandom_uses (n : Nat) : Sim.Uses (0 + n) (translationRandom n) :=
  Sim.Uses.bind Sim.Uses.lift fun _ => bvRandomBits_uses n

/-- C97: the test of `bm_swap_rows` ends with the status 0. -/
theorem bmSwapRowsTest_ends (runs dim : Nat) (hd : 1 ≤ dim) : Ends (bmSwapRowsTest runs dim) :=
  (bmSwapRowsTest_succeeds runs dim hd).ends (every_bounded (Sim.Uses.uniformInt_bind fun n _ _ =>
    ⟨_, Sim.Uses.bind (bmRandom_uses n n) fun _ => Sim.Uses.bind Sim.Uses.uniformInt fun _ => Sim.Uses.bind Sim.Uses.uniformInt fun _ =>
      Sim.Uses.bind Sim.Uses.lift fun _ => Sim.Uses.bind Sim.Uses.lift fun _ => Sim.Uses.pure⟩) runs)

theorem drawPositions_uses (a b : Nat) : Sim.Uses (0 + 1 + (a - 0) * (0 + 0)) (drawPositions a b) :=
  Sim.Uses.bind (Sim.Uses.bind Sim.Uses.lift fun _ => Sim.Uses.shuffle) fun _ => Sim.Uses.forRange fun _ _ => Sim.Uses.bind Sim.Uses.lift fun _ => Sim.Uses.pure

theorem involutionLoop_uses (inner n : Nat) (ts : List Transvection) :
    Sim.Uses (inner * (n + (0 + (0 + 0)))) (involutionLoop inner n ts) :=
  every_uses (Sim.Uses.bind (bvRandomBits_uses n) fun _ => Sim.Uses.bind Sim.Uses.lift fun _ => Sim.Uses.bind Sim.Uses.lift fun _ => Sim.Uses.pure) inner

theorem commutingSplit_uses (n t : Nat) : Sim.Uses (1 + (1 + 0)) (commutingSplit n t) := by
  unfold commutingSplit
  exact Sim.Uses.ite (Sim.Uses.bind Sim.Uses.uniformInt fun _ => Sim.Uses.bind Sim.Uses.bernoulli fun _ => Sim.Uses.pure) (Sim.Uses.bind Sim.Uses.uniformInt fun _ => Sim.Uses.bind Sim.Uses.bernoulli fun _ => Sim.Uses.pure)

theorem tsRandomCommuting_uses (n t : Nat) : Sim.Uses (0 + (1 + (1 + (1 + 0) + (0 + (1 + 0))))) (tsRandomCommuting [] n t) := by
  unfold tsRandomCommuting
  refine Sim.Uses.bind Sim.Uses.lift fun _ => Sim.Uses.ite (Sim.Uses.pure.mono (Nat.zero_le _)) ?_
  exact Sim.Uses.bind Sim.Uses.shuffle fun _ => Sim.Uses.bind (commutingSplit_uses _ _) fun _ => Sim.Uses.bind Sim.Uses.lift fun _ => 
    Sim.Uses.bind Sim.Uses.shuffle fun _ => Sim.Uses.ite Sim.Uses.pure Sim.Uses.pure

theorem tsRandomDisjoint_uses (n t : Nat) : Sim.Uses (0 + (1 + (0 + 0))) (tsRandomDisjoint [] n t) := by
  unfold tsRandomDisjoint
  refine Sim.Uses.bind Sim.Uses.lift fun _ => Sim.Uses.ite (Sim.Uses.pure.mono (Nat.zero_le _)) ?_
  exact Sim.Uses.bind Sim.Uses.shuffle fun _ => Sim.Uses.bind Sim.Uses.lift fun _ => Sim.Uses.lift

theorem tsRandomUniqueSource_uses (n t : Nat) :
    Sim.Uses (0 + (1 + (((if t > n - 1 then n - 1 else t) - 0) * (0 + (1 + (0 + 0))) + (0 + 1)))) (tsRandomUniqueSource [] n t) := by
  unfold tsRandomUniqueSource
  refine Sim.Uses.bind Sim.Uses.lift fun _ => Sim.Uses.ite (Sim.Uses.pure.mono (Nat.zero_le _)) ?_
  exact Sim.Uses.bind Sim.Uses.shuffle fun _ => Sim.Uses.bind (Sim.Uses.forRange fun _ _ => Sim.Uses.bind Sim.Uses.lift fun _ => Sim.Uses.bind Sim.Uses.uniformInt fun _ => Sim.Uses.bind Sim.Uses.lift fun _ => Sim.Uses.pure) fun _ =>
    Sim.Uses.bind Sim.Uses.lift fun _ => Sim.Uses.shuffle

theorem tsRandomUniqueDestination_uses (n t : Nat) :
    Sim.Uses (0 + (1 + (((if t > n - 1 then n - 1 else t) - 0) * (1 + (0 + (0 + 0))) + (0 + 1)))) (tsRandomUniqueDestination [] n t) := by
  unfold tsRandomUniqueDestination
  refine Sim.Uses.bind Sim.Uses.lift fun _ => Sim.Uses.ite (Sim.Uses.pure.mono (Nat.zero_le _)) ?_
  exact Sim.Uses.bind Sim.Uses.shuffle fun _ => Sim.Uses.bind (Sim.Uses.forRange fun _ _ => Sim.Uses.bind Sim.Uses.uniformInt fun _ => Sim.Uses.bind Sim.Uses.lift fun _ => Sim.Uses.bind Sim.Uses.lift fun _ => Sim.Uses.pure) fun _ =>
    Sim.Uses.bind Sim.Uses.lift fun _ => Sim.Uses.shuffle

/-- C97: the test of `bm_rank` ends with the status 0. -/
theorem bmRankTest_ends (runs dim : Nat) (hd : 1 ≤ dim) : Ends (bmRankTest runs dim) :=
  (bmRankTest_succeeds runs dim hd).ends (every_bounded (Sim.Uses.uniformInt_bind fun n _ _ =>
    ⟨_, Sim.Uses.bind (bmRandom_uses n n) fun _ => Sim.Uses.bind Sim.Uses.lift fun _ => Sim.Uses.bind Sim.Uses.lift fun _ => Sim.Uses.bind Sim.Uses.lift fun _ => Sim.Uses.pure⟩) runs)

/-- C97: the test of `bm_identity` ends with the status 0. -/
theorem bmIdentityTest_ends (runs dim : Nat) (hd : 1 ≤ dim) : Ends (bmIdentityTest runs dim) :=
  (bmIdentityTest_succeeds runs dim hd).ends (every_bounded (Sim.Uses.uniformInt_bind fun n _ _ =>
    ⟨_, Sim.Uses.bind Sim.Uses.lift fun _ => Sim.Uses.lift⟩) runs)

/-- C97: the test that the rank of the rows is the rank of the columns ends with the status 0. -/
theorem bmRowColumnRankTest_ends (runs dim : Nat) (hd : 1 ≤ dim) : Ends (bmRowColumnRankTest runs dim) :=
  (bmRowColumnRankTest_succeeds runs dim hd).ends (every_bounded (Sim.Uses.uniformInt_bind fun n _ _ =>
    ⟨_, Sim.Uses.bind (bmRandom_uses n n) fun _ => Sim.Uses.bind Sim.Uses.lift fun _ => Sim.Uses.bind Sim.Uses.lift fun _ => Sim.Uses.bind Sim.Uses.lift fun _ => Sim.Uses.bind Sim.Uses.lift fun _ => Sim.Uses.bind Sim.Uses.lift fun _ => Sim.Uses.pure⟩) runs)

/-- C97: the test of `bv_to_size_type` ends with the status 0. -/
theorem bvToSizeTypeTest_ends (runs size : Nat) (hs : size ≤ 64) : Ends (bvToSizeTypeTest runs size) :=
  (bvToSizeTypeTest_succeeds runs size hs).ends (every_bounded (Sim.Uses.uniformInt_bind fun n _ _ =>
    ⟨_, Sim.Uses.bind (bvRandomBits_uses n) fun _ => Sim.Uses.bind Sim.Uses.lift fun _ => Sim.Uses.bind Sim.Uses.lift fun _ => Sim.Uses.pure⟩) runs)

/-- C97: the test of `bv_from_stream` ends with the status 0. -/
theorem bvFromStreamTest_ends (runs size : Nat) : Ends (bvFromStreamTest runs size) :=
  (bvFromStreamTest_succeeds runs size ).ends (every_bounded (Sim.Uses.uniformInt_bind fun n _ _ =>
    ⟨_, Sim.Uses.bind (bvRandomBits_uses n) fun _ => Sim.Uses.bind Sim.Uses.lift fun _ => Sim.Uses.pure⟩) runs)

/-- C97: the test of translations ends with the status 0. -/
theorem translationTest_ends (runs size : Nat) (hs : 1 ≤ size) : Ends (translationTest runs size) :=
  (translationTest_succeeds runs size hs).ends (every_bounded (Sim.Uses.uniformInt_bind fun n _ _ =>
    ⟨_, Sim.Uses.bind (translationRandom_uses n) fun _ => Sim.Uses.bind (bvRandomBits_uses n) fun _ => Sim.Uses.bind Sim.Uses.lift fun _ => Sim.Uses.bind Sim.Uses.lift fun _ => Sim.Uses.pure⟩) runs)

/-- C97: the test of injections and projections ends with the status 0. -/
theorem injectionProjectionTest_ends (runs size delta : Nat) (hs : 1 ≤ size) : Ends (injectionProjectionTest runs size delta) :=
  (injectionProjectionTest_succeeds runs size delta hs).ends (every_bounded (Sim.Uses.uniformInt_bind fun n _ _ =>
    Sim.Uses.uniformInt_bind fun d _ _ => ⟨_, Sim.Uses.bind (drawPositions_uses n (n + d)) fun _ => Sim.Uses.bind Sim.Uses.lift fun _ => Sim.Uses.bind Sim.Uses.lift fun _ => Sim.Uses.bind (bvRandomBits_uses n) fun _ => Sim.Uses.bind (bvRandomBits_uses (n + d)) fun _ => Sim.Uses.bind Sim.Uses.lift fun _ => Sim.Uses.bind Sim.Uses.lift fun _ => Sim.Uses.pure⟩) runs)

/-- C97: the test that the transvections drawn commute ends with the status 0. -/
theorem tsCommutingTest_ends (runs dim : Nat) (hd : 2 ≤ dim) : Ends (tsCommutingTest runs dim) :=
  (tsCommutingTest_succeeds runs dim hd).ends (every_bounded (Sim.Uses.uniformInt_bind fun n _ _ =>
    ⟨_, Sim.Uses.bind (tsRandomCommuting_uses n _) fun _ => Sim.Uses.lift⟩) runs)

/-- C97: the test that the commuting transvections drawn undo themselves ends with the status 0. -/
theorem tsCommutingInvolutionTest_ends (runs inner dim : Nat) (hd : 2 ≤ dim) : Ends (tsCommutingInvolutionTest runs inner dim) :=
  (tsCommutingInvolutionTest_succeeds runs inner dim hd).ends (every_bounded (Sim.Uses.uniformInt_bind fun n _ _ =>
    ⟨_, Sim.Uses.bind (tsRandomCommuting_uses n _) fun _ => involutionLoop_uses inner n _⟩) runs)

/-- C97: the test that the transvections drawn are disjoint ends with the status 0. -/
theorem tsDisjointTest_ends (runs dim : Nat) (hd : 2 ≤ dim) : Ends (tsDisjointTest runs dim) :=
  (tsDisjointTest_succeeds runs dim hd).ends (every_bounded (Sim.Uses.uniformInt_bind fun n _ _ =>
    ⟨_, Sim.Uses.bind (tsRandomDisjoint_uses n _) fun _ => Sim.Uses.lift⟩) runs)

/-- C97: the test that the disjoint transvections drawn undo themselves ends with the status 0. -/
theorem tsDisjointInvolutionTest_ends (runs inner dim : Nat) (hd : 2 ≤ dim) : Ends (tsDisjointInvolutionTest runs inner dim) :=
  (tsDisjointInvolutionTest_succeeds runs inner dim hd).ends (every_bounded (Sim.Uses.uniformInt_bind fun n _ _ =>
    ⟨_, Sim.Uses.bind (tsRandomDisjoint_uses n _) fun _ => involutionLoop_uses inner n _⟩) runs)

/-- C97: the test that the transvections drawn with unique sources undo themselves ends with the status 0. -/
theorem tsUniqueSourceTest_ends (runs inner dim : Nat) (hd : 2 ≤ dim) : Ends (tsUniqueSourceTest runs inner dim) :=
  (tsUniqueSourceTest_succeeds runs inner dim hd).ends (every_bounded (Sim.Uses.uniformInt_bind fun n _ _ =>
    ⟨_, Sim.Uses.bind (tsRandomUniqueSource_uses n _) fun _ => involutionLoop_uses inner n _⟩) runs)

/-- C97: the test that the transvections drawn with unique destinations undo themselves ends with the status 0. -/
theorem tsUniqueDestinationTest_ends (runs inner dim : Nat) (hd : 2 ≤ dim) : Ends (tsUniqueDestinationTest runs inner dim) :=
  (tsUniqueDestinationTest_succeeds runs inner dim hd).ends (every_bounded (Sim.Uses.uniformInt_bind fun n _ _ =>
    ⟨_, Sim.Uses.bind (tsRandomUniqueDestination_uses n _) fun _ => involutionLoop_uses inner n _⟩) runs)

/-- C97: the test of `bv_random` ends with the status 0. -/
theorem bvRandomTest_ends {K : Type} [LT K] [DecidableLT K] (ratio : Nat → Nat → K) (uniform : Nat → Nat → K)
    (hu : ∀ i n j, 0 < n → uniform i j < ratio n n) (runs size : Nat) (hs : 1 ≤ size) :
    Ends (bvRandomTest ratio uniform runs size) :=
  (bvRandomTest_succeeds ratio uniform hu runs size hs).ends ⟨_, everyAt_uses (fun i => Sim.Uses.bind Sim.Uses.uniformInt fun _ =>
    Sim.Uses.bind Sim.Uses.uniformInt fun _ => Sim.Uses.bind Sim.Uses.lift fun _ => Sim.Uses.pure) runs 0⟩

end Tests

end Hnco
