import Verif.Algorithm.ProbabilityVector
import Verif.Algorithm.TieProps
import Verif.Algorithm.EvolutionaryProps
import Verif.Population.Generation
import Verif.Neighborhood.Props
import Mathlib.Algebra.Order.Field.Rat
import Mathlib.Tactic.Linarith
import Mathlib.Tactic.Positivity
import Mathlib.Tactic.FieldSimp

/-! # Lemmas about probability vectors -/

namespace Hnco

open Outcome

variable {K ρ : Type}

/-- A loop which changes each entry of a list once. -/
theorem forRange_mapIdx {α : Type} (g : Nat → α → α) {body : Nat → List α → Outcome (List α)} {l : List α}
    (hbody : ∀ (i : Nat) (r : List α) (hi : i < r.length), r.length = l.length → body i r = ok (r.set i (g i r[i]))) :
    forRange 0 l.length body l = ok (l.mapIdx g) := by
  obtain ⟨r, e, h1, h2⟩ := forRange_returns (body := body) (s := l) (fun j (r : List α) => r.length = l.length ∧
    ∀ (i : Nat) (hi : i < l.length), r[i]? = some (if i < j then g i l[i] else l[i])) (Nat.zero_le l.length)
    ⟨rfl, fun i hi => by rw [if_neg (by omega), List.getElem?_eq_getElem hi]⟩ (by
      rintro j r _ hj ⟨h1, h2⟩
      have hjr : j < r.length := by omega
      have hrj := h2 j hj
      rw [if_neg (by omega), List.getElem?_eq_getElem hjr] at hrj
      rw [hbody j r hjr h1, Option.some.inj hrj]
      refine returns_ok.mpr ⟨by simpa using h1, fun i hi => ?_⟩
      by_cases hij : i = j
      · subst hij
        rw [List.getElem?_set_self hjr, if_pos (by omega)]
      · rw [List.getElem?_set_ne (Ne.symm hij), h2 i hi]
        by_cases hlt : i < j
        · rw [if_pos hlt, if_pos (by omega)]
        · rw [if_neg hlt, if_neg (by omega)])
  rw [e]
  congr 1
  refine List.ext_getElem (by simpa using h1) (fun i hi hi' => ?_)
  have hil : i < l.length := by omega
  have := h2 i hil
  rw [List.getElem?_eq_getElem hi, if_pos hil] at this
  rw [Option.some.inj this, List.getElem_mapIdx]

theorem mapIdx_zipWith {α β : Type} {g : Nat → α → α} {f : α → β → α} {l : List α} {x : List β}
    (h : x.length = l.length) (hg : ∀ (i : Nat) (hl : i < l.length) (hx : i < x.length), g i l[i] = f l[i] x[i]) :
    l.mapIdx g = List.zipWith f l x := by
  refine List.ext_getElem (by simp [h]) (fun i hi hi' => ?_)
  rw [List.getElem_mapIdx, List.getElem_zipWith]
  exact hg i (by simpa using hi) (by rw [h]; simpa using hi)

theorem mapIdx_map {α : Type} {g : Nat → α → α} {f : α → α} {l : List α}
    (hg : ∀ (i : Nat) a, i < l.length → g i a = f a) : l.mapIdx g = l.map f := by
  refine List.ext_getElem (by simp) (fun i hi hi' => ?_)
  rw [List.getElem_mapIdx, List.getElem_map]
  exact hg i _ (by simpa using hi)

theorem pvAdd_eq {pv : List Rat} {bv : BV} (h : bv.length = pv.length) :
    pvAdd pv bv = ok (List.zipWith (fun p b => p + bitRat b) pv bv) := by
  unfold pvAdd
  rw [assert_pos (by simpa using h), ok_bind, forRange_mapIdx (fun i p => p + bitRat (bv[i]?.getD false))]
  · rw [mapIdx_zipWith h]
    intro i hl hx
    rw [List.getElem?_eq_getElem hx]
    rfl
  · intro i r hi hr
    have hib : i < bv.length := by omega
    rw [vget_eq hib, ok_bind, vget_eq hi, ok_bind, List.getElem?_eq_getElem hib]
    cases hb : bv[i]
    · rw [if_neg (by simp)]
      show ok r = ok (r.set i (r[i] + 0))
      rw [add_zero, List.set_getElem_self]
    · rw [if_pos rfl, vset_eq hi]
      rfl

theorem pvAddWeighted_eq {pv : List Rat} {bv : BV} {w : Rat} (h : bv.length = pv.length) :
    pvAddWeighted pv bv w = ok (List.zipWith (fun p b => p + w * bitRat b) pv bv) := by
  unfold pvAddWeighted
  rw [assert_pos (by simpa using h), ok_bind, forRange_mapIdx (fun i p => p + w * bitRat (bv[i]?.getD false))]
  · rw [mapIdx_zipWith h]
    intro i hl hx
    rw [List.getElem?_eq_getElem hx]
    rfl
  · intro i r hi hr
    have hib : i < bv.length := by omega
    rw [vget_eq hib, ok_bind, vget_eq hi, ok_bind, List.getElem?_eq_getElem hib, vset_eq hi]
    rfl

theorem pvAverage_eq {pv : List Rat} {count : Int} (h : count ≠ 0) :
    pvAverage pv count = ok (pv.map (fun p => p / (count : Rat))) := by
  unfold pvAverage
  rw [forRange_mapIdx (fun _ p => p / (count : Rat)), mapIdx_map (f := fun p => p / (count : Rat)) (fun _ _ _ => rfl)]
  intro i r hi hr
  rw [vget_eq hi, ok_bind, assert_pos (by simpa using h), ok_bind, vset_eq hi]

theorem pvUpdate_eq {pv x : List Rat} {rate : Rat} (h : x.length = pv.length) :
    pvUpdate pv x rate = ok (List.zipWith (fun p a => p + rate * (a - p)) pv x) := by
  unfold pvUpdate
  rw [assert_pos (by simpa using h), ok_bind, forRange_mapIdx (fun i p => p + rate * (x[i]?.getD 0 - p))]
  · rw [mapIdx_zipWith h]
    intro i hl hx
    rw [List.getElem?_eq_getElem hx]
    rfl
  · intro i r hi hr
    have hix : i < x.length := by omega
    rw [vget_eq hix, ok_bind, vget_eq hi, ok_bind, List.getElem?_eq_getElem hix, vset_eq hi]
    rfl

theorem pvUpdateBits_eq {pv : List Rat} {x : BV} {rate : Rat} (h : x.length = pv.length) :
    pvUpdateBits pv x rate = ok (List.zipWith (fun p b => p + rate * (bitRat b - p)) pv x) := by
  unfold pvUpdateBits
  rw [assert_pos (by simpa using h), ok_bind, forRange_mapIdx (fun i p => p + rate * (bitRat (x[i]?.getD false) - p))]
  · rw [mapIdx_zipWith h]
    intro i hl hx
    rw [List.getElem?_eq_getElem hx]
    rfl
  · intro i r hi hr
    have hix : i < x.length := by omega
    rw [vget_eq hix, ok_bind, vget_eq hi, ok_bind, List.getElem?_eq_getElem hix, vset_eq hi]
    rfl

theorem pvUpdateBetween_eq {pv x y : List Rat} {rate : Rat} (hx : x.length = pv.length) (hy : y.length = pv.length) :
    pvUpdateBetween pv x y rate =
      ok (List.zipWith (fun p d => p + rate * d) pv (List.zipWith (fun a b => a - b) x y)) := by
  unfold pvUpdateBetween
  rw [assert_pos (by simpa using hx), ok_bind, assert_pos (by simpa using hy), ok_bind,
    forRange_mapIdx (fun i p => p + rate * (x[i]?.getD 0 - y[i]?.getD 0))]
  · rw [mapIdx_zipWith (x := List.zipWith (fun a b => a - b) x y) (by simp [hx, hy])]
    intro i hl hi
    rw [List.getElem?_eq_getElem (by omega), List.getElem?_eq_getElem (by omega), List.getElem_zipWith]
    rfl
  · intro i r hi hr
    have hix : i < x.length := by omega
    have hiy : i < y.length := by omega
    rw [vget_eq hix, ok_bind, vget_eq hiy, ok_bind, vget_eq hi, ok_bind, List.getElem?_eq_getElem hix,
      List.getElem?_eq_getElem hiy, vset_eq hi]
    rfl

theorem pvBound_eq {pv : List Rat} {lower upper : Rat} :
    pvBound pv lower upper = ok (pv.map (fun p => max lower (min upper p))) := by
  unfold pvBound
  rw [forRange_mapIdx (fun _ p => max lower (min upper p)),
    mapIdx_map (f := fun p => max lower (min upper p)) (fun _ _ _ => rfl)]
  intro i r hi hr
  rw [vget_eq hi, ok_bind, vset_eq hi, ok_bind, vget_eq (by simpa using hi), ok_bind, vset_eq (by simpa using hi),
    List.set_set, List.getElem_set_self]

theorem pvUniform_length {pv : List Rat} : (pvUniform pv).length = pv.length := List.length_replicate

theorem pvSample_post {pv : List Rat} {n : Nat} (hpv : pv.length = n) {x : BV} (hx : x.length = n) :
    Sim.Post (pvSample pv x) (fun y => y.length = n) := by
  unfold pvSample
  refine (Sim.Post.assert (by simp [hpv, hx])).bind (fun _ _ => ?_)
  refine Sim.Post.forRange (I := fun _ (y : BV) => y.length = n) (Nat.zero_le _) hx ?_
  intro i y _ hi hy
  refine Sim.Post.uniform.bind (fun u _ => ?_)
  refine Sim.Post.lift_bind (vget_eq (by omega)) ?_
  exact Sim.Post.lift ⟨_, vset_eq (by omega), by simpa using hy⟩

/-- A sampled bit is 1 only where the probability is positive, and 0 only where it is below 1. -/
theorem pvSample_support {pv : List Rat} {n : Nat} (hpv : pv.length = n) {x : BV} (hx : x.length = n) :
    Sim.Post (pvSample pv x) (fun y => y.length = n ∧ ∀ (i : Nat) b p, y[i]? = some b → pv[i]? = some p →
      (b = true → 0 < p) ∧ (b = false → p < 1)) := by
  unfold pvSample
  refine (Sim.Post.assert (by simp [hpv, hx])).bind (fun _ _ => ?_)
  refine (Sim.Post.forRange (I := fun j (y : BV) => y.length = n ∧ ∀ (i : Nat) b p, i < j → y[i]? = some b →
    pv[i]? = some p → (b = true → 0 < p) ∧ (b = false → p < 1)) (Nat.zero_le _)
    ⟨hx, fun i b p h => absurd h (Nat.not_lt_zero _)⟩ ?_).mono ?_
  · rintro i y _ hi ⟨hy, hy'⟩
    refine Sim.Post.uniform.bind (fun u hu => ?_)
    have hip : i < pv.length := by omega
    refine Sim.Post.lift_bind (vget_eq hip) ?_
    refine Sim.Post.lift ⟨_, vset_eq (by omega), by simpa using hy, ?_⟩
    intro j b p hj hb hp
    by_cases hij : i = j
    · subst hij
      rw [List.getElem?_set_self (by omega)] at hb
      rw [List.getElem?_eq_getElem hip] at hp
      cases hp
      have hb' := Option.some.inj hb
      constructor
      · rintro rfl
        exact lt_of_le_of_lt hu.1 (of_decide_eq_true hb')
      · rintro rfl
        exact lt_of_le_of_lt (not_lt.mp (of_decide_eq_false hb')) hu.2
    · rw [List.getElem?_set_ne hij] at hb
      exact hy' j b p (by omega) hb hp
  · rintro y ⟨hy, hy'⟩
    refine ⟨hy, fun i b p hb hp => hy' i b p ?_ hb hp⟩
    have := (List.getElem?_eq_some_iff.mp hb).1
    omega

theorem Pop.sample_valid [LinearOrder K] {p : Pop K} {size n : Nat} (hp : p.Valid size n) {sampler : BV → Sim BV}
    (hs : ∀ x : BV, x.length = n → Sim.Post (sampler x) (fun y => y.length = n)) :
    Sim.Post (p.sample sampler) (fun q => q.Valid size n) := by
  unfold Pop.sample
  refine Sim.Post.forRange (I := fun _ (q : Pop K) => q.Valid size n) (Nat.zero_le _) hp ?_
  intro i q _ hi hq
  have hiq : i < q.bvs.length := by rw [hq.bvs, ← hp.bvs]; exact hi
  refine Sim.Post.lift_bind (vget_eq hiq) ?_
  refine (hs _ (hq.bits _ (List.getElem_mem hiq))).bind (fun y hy => ?_)
  refine Sim.Post.lift_bind (vset_eq hiq) (Sim.Post.pure ?_)
  exact hq.setBv i hy

end Hnco
