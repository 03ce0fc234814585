import Verif.Function.TheoryProps
import Verif.Function.WalshProps
import Verif.Tests.Ends
import Verif.Tests.MomentModel
import Verif.Walsh.HerdingProps

/-!
# The test programs on Walsh moments, herding and the Walsh transform end with success (C102)

`Ends check` (see `Verif.Tests.Ends`) says that there is a number of draws with which the program always ends, and its exit status is 0.
-/

namespace Hnco.Tests

open Outcome

/-! ## Helper lemmas -/

theorem allFrom_eq {body : Nat → Outcome Bool} : ∀ (count i : Nat), (∀ j, i ≤ j → j < i + count → body j = ok true) →
    allFrom body count i = ok true
  | 0, _, _ => rfl
  | count + 1, i, h => by
    unfold allFrom
    rw [h i (le_refl i) (by omega), ok_bind, if_pos rfl]
    exact allFrom_eq count (i + 1) fun j h1 h2 => h j (by omega) (by omega)

theorem sameMoments_eq {n : Nat} {t s : Moment} {F : Nat → Rat} {G : Nat → Nat → Rat} (ht : t.Is false n F G) (hs : s.Is true n F G) :
    sameMoments n t s = ok true := by
  unfold sameMoments
  rw [allFrom_eq n 0 fun i _ hi => ?_, ok_bind, if_pos rfl]
  · refine allFrom_eq n 0 fun i _ hi => allFrom_eq i 0 fun j _ hj => ?_
    rw [Moment.read_eq (ht.second i j (by omega) (by omega)), ok_bind, Moment.read_eq (hs.second i j (by omega) (by omega)), ok_bind]
    simp
  · unfold vget
    rw [ht.first i (by omega), hs.first i (by omega)]
    simp [bind, Outcome.bind]

/-- Both moments contain the sums over the same bit vectors. -/
theorem populationMoments_post (n size : Nat) (hn : 1 ≤ n) : Sim.Post (populationMoments n size) (fun m => ∃ xs : List BV,
    xs.length = size ∧ m.1.Is false n (sumFirst xs) (sumSecond xs) ∧ m.2.Is true n (sumFirst xs) (sumSecond xs)) := by
  refine (Sim.Post.lift (Moment.new_spec hn)).bind fun t ht => (Sim.Post.lift (Moment.new_spec hn)).bind fun s hs => ?_
  refine Sim.Post.forRange (fun k (m : Moment × Moment) => ∃ xs : List BV,
    xs.length = k ∧ m.1.Is false n (sumFirst xs) (sumSecond xs) ∧ m.2.Is true n (sumFirst xs) (sumSecond xs)) (Nat.zero_le _)
    ⟨[], rfl, ?_, ?_⟩ ?_
  · exact (Moment.init_is ht.1.shape).1.congr (fun i _ => by simp [sumFirst]) (fun i j _ _ => by simp [sumSecond])
  · exact (Moment.init_is hs.1.shape).1.congr (fun i _ => by simp [sumFirst]) (fun i j _ _ => by simp [sumSecond])
  · rintro k m _ _ ⟨xs, h1, h2, h3⟩
    refine (bvRandomBits_post n).bind fun x hx => (Sim.Post.lift (Moment.add_spec h2 hx)).bind fun t ht =>
      (Sim.Post.lift (Moment.add_spec h3 hx)).bind fun s hs => Sim.Post.pure ⟨xs ++ [x], by simp [h1], ?_, ?_⟩
    · exact ht.congr (fun i _ => by simp [sumFirst]) (fun i j _ _ => by simp [sumSecond])
    · exact hs.congr (fun i _ => by simp [sumFirst]) (fun i j _ _ => by simp [sumSecond])

theorem populationMoments_uses (n size : Nat) : ∃ c, Sim.Uses c (populationMoments n size) :=
  ⟨_, Sim.Uses.bind Sim.Uses.lift fun _ => Sim.Uses.bind Sim.Uses.lift fun _ => Sim.Uses.forRange fun _ _ =>
    (bvRandomBits_uses n).bind fun _ => Sim.Uses.lift.bind fun _ => Sim.Uses.lift.bind fun _ => Sim.Uses.pure⟩

theorem herdingNew_after {full : Bool} {n : Nat} (hn : 1 ≤ n) : (Herding.new full n).Returns (fun h => h.init.After full n []) := by
  refine Returns.bind (Moment.new_spec hn) fun d hd => Returns.bind (Moment.new_spec hn) fun c hc => returns_ok.mpr ?_
  exact Herding.init_after hd.1.shape hc.1.shape (by simp)

theorem compareSamples_post {n : Nat} {tm sm : Moment} {F : Nat → Rat} {G : Nat → Nat → Rat} (ht : tm.Is false n F G)
    (hs : sm.Is true n F G) : ∀ (k : Nat) (th sh : Herding) (ys : List BV) (x y : BV), th.After false n ys → sh.After true n ys →
    x.length = n → y.length = n → Sim.Post (compareSamples tm sm k th sh x y) (fun b => b = true)
  | 0, _, _, _, _, _, _, _, _, _ => Sim.Post.pure rfl
  | k + 1, th, sh, ys, x, y, h1, h2, hx, hy => by
    refine (herding_sample ht h1 hx).bind fun r ⟨r1, r2, o, ho, ho', hr⟩ => (herding_sample hs h2 hy).bind
      fun s ⟨s1, s2, o', _, ho'', hr'⟩ => ?_
    rw [ho' rfl] at hr ho
    rw [ho'' rfl] at hr'
    have e : r.2 = s.2 := herded_unique ho r1 s1 hr hr'
    rw [if_neg (by simpa using e)]
    exact compareSamples_post ht hs k r.1 s.1 (ys ++ [r.2]) r.2 s.2 r2 (by rw [e]; exact s2) r1 s1

theorem sample_uses (full : Bool) (target : Moment) (h : Herding) (x : BV) : Sim.Uses 0 (h.sample full false target x) :=
  Sim.Uses.bind (c := 0) (d := 0) Sim.Uses.lift fun _ => Sim.Uses.lift

theorem compareSamples_uses (tm sm : Moment) : ∀ (k : Nat) (th sh : Herding) (x y : BV),
    Sim.Uses 0 (compareSamples tm sm k th sh x y)
  | 0, _, _, _, _ => Sim.Uses.pure
  | k + 1, th, sh, x, y => Sim.Uses.bind (c := 0) (d := 0) (sample_uses _ _ _ _) fun r =>
    Sim.Uses.bind (c := 0) (d := 0) (sample_uses _ _ _ _) fun s => Sim.Uses.ite Sim.Uses.pure (compareSamples_uses tm sm k _ _ _ _)

/-- The value of `Plateau`, as a function. -/
def plateauValue (n : Nat) (x : BV) : Int :=
  if findZero x = x.length then (n : Int) + 2
  else if (x.drop (findZero x)).all (fun b => b == false) then (n : Int) + 1
  else (n : Int) - bvHammingWeight x

theorem plateau_eval (n : Nat) (x : BV) (hx : x.length = n) : (plateau n).eval x = ok (plateauValue n x) := by
  obtain ⟨v, hv⟩ : ∃ v, (plateau n).eval x = ok v := by
    obtain ⟨-, m, -, h, -⟩ := plateau_maximum n
    obtain ⟨v, hv, -⟩ := h x hx
    exact ⟨v, hv⟩
  rw [hv]
  change plateauEval n x = ok v at hv
  unfold plateauEval at hv
  unfold plateauValue
  split at hv
  · rename_i h
    rw [if_pos h]
    obtain ⟨_, _, hv⟩ := bind_eq_ok.mp hv
    exact congrArg ok (Outcome.ok.inj hv).symm
  · rename_i h
    rw [if_neg h]
    split at hv
    · rename_i h'
      rw [if_pos h']
      exact congrArg ok (Outcome.ok.inj hv).symm
    · rename_i h'
      rw [if_neg h']
      exact congrArg ok (Outcome.ok.inj hv).symm

/-! ## Properties -/

/-- C102: the test that triangular and full moments agree ends with the status 0. -/
theorem momentAddTest_ends (runs dim pop : Nat) (hd : 1 ≤ dim) (hp : 1 ≤ pop) : Ends (momentAddTest runs dim pop) := by
  refine (succeeds_every ((Sim.Post.uniformInt hd).bind fun n hn => (Sim.Post.uniformInt hp).bind fun size _ =>
    (populationMoments_post n size hn.1).bind fun m ⟨xs, _, h1, h2⟩ => Sim.Post.lift ⟨true, sameMoments_eq h1 h2, rfl⟩) runs).ends
    (every_bounded (Sim.Uses.uniformInt_bind fun n _ _ => Sim.Uses.uniformInt_bind fun size _ _ =>
      (populationMoments_uses n size).elim fun _ h => ⟨_, h.bind fun _ => Sim.Uses.lift⟩) runs)

example : Ends (momentAddTest 100 100 100) ∧ exitStatus (momentAddTest 1 3 2) [2, 1, 1, 0, 1, 0, 1, 1] = .ok 0 [] :=
  ⟨momentAddTest_ends _ _ _ (by norm_num) (by norm_num), by decide +kernel⟩

/-- C102: the test that triangular and full herding give the same samples ends with the status 0. -/
theorem herdingTest_ends (runs dim pop seq : Nat) (hd : 1 ≤ dim) (hp : 1 ≤ pop) (hs : 1 ≤ seq) :
    Ends (herdingTest runs dim pop seq) := by
  refine (succeeds_every ((Sim.Post.uniformInt hd).bind fun n hn => (Sim.Post.uniformInt hp).bind fun size hsize =>
    (Sim.Post.uniformInt hs).bind fun length _ => (populationMoments_post n size hn.1).bind fun m ⟨xs, hxs, h1, h2⟩ => ?_) runs).ends
    (every_bounded (Sim.Uses.uniformInt_bind fun n _ _ => Sim.Uses.uniformInt_bind fun size _ _ => Sim.Uses.uniformInt_bind
      fun length _ _ => (populationMoments_uses n size).elim fun _ h => ⟨_, h.bind fun _ => Sim.Uses.lift.bind fun _ =>
        Sim.Uses.lift.bind fun _ => Sim.Uses.lift.bind fun _ => Sim.Uses.lift.bind fun _ => compareSamples_uses _ _ _ _ _ _ _⟩) runs)
  have hne : xs ≠ [] := by
    rintro rfl
    simp at hxs
    omega
  refine (Sim.Post.lift (Moment.average_mean hne (by rw [hxs]) h1)).bind fun tm htm =>
    (Sim.Post.lift (Moment.average_mean hne (by rw [hxs]) h2)).bind fun sm hsm =>
    (Sim.Post.lift (herdingNew_after hn.1)).bind fun th hth => (Sim.Post.lift (herdingNew_after hn.1)).bind fun sh hsh => ?_
  exact compareSamples_post htm.1 hsm.1 length _ _ [] _ _ hth hsh (by simp) (by simp)

example : Ends (herdingTest 100 100 100 100) ∧ exitStatus (herdingTest 1 3 2 3) [2, 1, 2, 1, 0, 1, 0, 1, 1] = .ok 0 [] :=
  ⟨herdingTest_ends _ _ _ _ (by norm_num) (by norm_num) (by norm_num), by decide +kernel⟩

/-- C102: the test of the Walsh transform ends with the status 0. -/
theorem walshTransformTest_ends (runs inner dim : Nat) (hd : 1 ≤ dim) (hd' : dim < 31) : Ends (walshTransformTest runs inner dim) := by
  refine (succeeds_every ((Sim.Post.uniformInt hd).bind fun n hn => (Sim.Post.lift (P := fun v => v = 2 ^ n)
    ⟨_, by unfold shiftOne; rw [if_pos (by omega)], rfl⟩).bind fun norm hnorm => ?_) runs).ends
    (every_bounded (Sim.Uses.uniformInt_bind fun n _ _ => ⟨_, Sim.Uses.lift.bind fun _ => Sim.Uses.lift.bind fun _ =>
      every_uses ((bvRandomBits_uses n).bind fun _ => Sim.Uses.lift.bind fun _ => Sim.Uses.lift.bind fun _ =>
        Sim.Uses.ite Sim.Uses.pure Sim.Uses.pure) inner⟩) runs)
  subst hnorm
  obtain ⟨terms, h1, h2⟩ := walshTransform_expansion (plateau n) (plateauValue n) hn.1 (show n < 31 by omega) (plateau_eval n)
  refine (Sim.Post.lift (P := fun t => t = terms) ⟨_, h1, rfl⟩).bind fun t ht => every_post ((bvRandomBits_post n).bind fun x hx => ?_) inner
  subst ht
  refine (Sim.Post.lift (P := fun a => a = 2 ^ n * plateauValue n x) ⟨_, h2 x hx, rfl⟩).bind fun a ha =>
    (Sim.Post.lift (P := fun b => b = plateauValue n x) ⟨_, plateau_eval n x hx, rfl⟩).bind fun b hb => ?_
  subst ha hb
  rw [if_neg (by push_cast; simp [mul_comm])]
  exact Sim.Post.pure rfl

example : Ends (walshTransformTest 100 1000 10) ∧ exitStatus (walshTransformTest 1 2 3) [1, 1, 0, 1, 1] = .ok 0 [] :=
  ⟨walshTransformTest_ends _ _ _ (by norm_num) (by norm_num), by decide +kernel⟩

end Hnco.Tests
