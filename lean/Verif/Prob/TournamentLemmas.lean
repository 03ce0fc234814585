import Verif.Prob.ShuffleLemmas
import Verif.Prob.TournamentSpec
import Verif.Population.TournamentProps

/-!
# Lemmas about tournament selection, with probabilities
-/

namespace Hnco.Prob

open Outcome
open scoped ENNReal

variable {K : Type}

theorem permShuffle_eq {l : List ℕ} {N : ℕ} (h : l.Perm (List.range N)) : permShuffle l = permRandom N := by
  ext s
  have hlen : l.length = N := by simpa using h.length_eq
  change (if s.Perm l then _ else _) = (if s.Perm (List.range N) then _ else _)
  by_cases hs : s.Perm l
  · rw [if_pos hs, if_pos (hs.trans h), hlen]
  · rw [if_neg hs, if_neg (fun h' => hs (h'.trans h.symm))]

/-- The state in round `j` of permutation `s`. -/
def roundState (k j : ℕ) (s : List ℕ) : Tournament := ⟨s, j * k, (j + 1) * k, k⟩

theorem tournamentInit_eq {t : Tournament} {N : ℕ} (h : t.perm.Perm (List.range N)) :
    tournamentInit t = permRandom N >>= fun s => pure (roundState t.size 0 s) := by
  unfold tournamentInit
  rw [permShuffle_eq h]
  refine Dist.bind_congr_support (fun s _ => ?_)
  simp [roundState]

theorem roundState_valid {k j N : ℕ} {s : List ℕ} (hs : s.Perm (List.range N)) (hk : 2 ≤ k) (hj : j < N / k) : (roundState k j s).Valid N := by
  refine ⟨hs, hk, by simp [roundState]; ring, ?_⟩
  exact (Nat.le_div_iff_mul_le (by omega)).mp hj

/-! ## The winner of a round -/

/-- The winner between `b` and challengers. -/
def fight [LinearOrder K] (val : ℕ → K) : ℕ → List ℕ → ℕ
  | b, [] => b
  | b, c :: r => fight val (if val b < val c then c else b) r

theorem fight_map [LinearOrder K] {val : ℕ → K} {π : ℕ → ℕ} (h : ∀ i, val (π i) = val i) : ∀ (r : List ℕ) (b : ℕ),
    fight val (π b) (r.map π) = π (fight val b r)
  | [], b => rfl
  | c :: r, b => by
    rw [List.map_cons, fight, fight, h, h, ← fight_map h r]
    congr 1
    split <;> rfl

theorem fight_mem [LinearOrder K] (val : ℕ → K) : ∀ (r : List ℕ) (b : ℕ), fight val b r ∈ b :: r
  | [], b => by simp [fight]
  | c :: r, b => by
    have h := fight_mem val r (if val b < val c then c else b)
    rw [fight]
    rw [List.mem_cons] at h
    rcases h with h | h
    · rw [h]; split <;> simp
    · simp [h]

theorem fight_ge [LinearOrder K] (val : ℕ → K) : ∀ (r : List ℕ) (b : ℕ), ∀ x ∈ b :: r, val x ≤ val (fight val b r)
  | [], b, x, hx => by
    rw [List.mem_singleton] at hx
    rw [hx, fight]
  | c :: r, b, x, hx => by
    have h := fight_ge val r (if val b < val c then c else b)
    rw [fight]
    have hb := h _ (List.mem_cons_self ..)
    rw [List.mem_cons, List.mem_cons] at hx
    rcases hx with rfl | rfl | hx
    · refine le_trans ?_ hb
      split
      · exact le_of_lt (by assumption)
      · exact le_refl _
    · refine le_trans ?_ hb
      split
      · exact le_refl _
      · exact not_lt.mp (by assumption)
    · exact h x (List.mem_cons_of_mem _ hx)

/-- The winner of the round which begins at position `p`. -/
def winner [LinearOrder K] (val : ℕ → K) (k p : ℕ) (s : List ℕ) : ℕ :=
  match (s.drop p).take k with
  | [] => 0
  | b :: r => fight val b r

theorem round_loop [LinearOrder K] {values : List K} {N : ℕ} {t : Tournament} (hp : t.perm.Perm (List.range N))
    {val : ℕ → K} (hval : ∀ i, i < N → values[i]? = some (val i)) : ∀ (k i w b : ℕ), i + k ≤ N → t.perm[w]? = some b →
    ∃ w', forLoop k i (fun challenger (s : Nat × K) => do
      let k ← vget t.perm challenger
      let value ← vget values k
      if decide (s.2 < value) then ok (challenger, value) else ok s) (w, val b) = ok (w', val (fight val b ((t.perm.drop i).take k))) ∧
      t.perm[w']? = some (fight val b ((t.perm.drop i).take k))
  | 0, i, w, b, _, hw => ⟨w, by simp [forLoop, fight], by simpa [fight] using hw⟩
  | k + 1, i, w, b, hi, hw => by
    have hlen : t.perm.length = N := by simpa using hp.length_eq
    have hi' : i < t.perm.length := by omega
    have hc : t.perm[i] < N := by simpa using hp.mem_iff.mp (List.getElem_mem hi')
    have hv : vget values t.perm[i] = ok (val t.perm[i]) := by unfold vget; rw [hval _ hc]
    rw [List.drop_eq_getElem_cons hi', List.take_succ_cons, fight]
    obtain ⟨w', e1, e2⟩ := round_loop hp hval k (i + 1) (if val b < val t.perm[i] then i else w)
      (if val b < val t.perm[i] then t.perm[i] else b) (by omega) (by
        split
        · rw [List.getElem?_eq_getElem hi']
        · exact hw)
    refine ⟨w', ?_, e2⟩
    rw [forLoop, vget_eq hi', ok_bind, hv, ok_bind]
    rw [← e1]
    by_cases h : val b < val t.perm[i]
    · simp only [h, decide_true, if_true, ok_bind]
    · simp only [h, decide_false, if_false, Bool.false_eq_true, ok_bind]

theorem round_eq [LinearOrder K] {values : List K} {N : ℕ} {t : Tournament} (ht : t.Valid N)
    {val : ℕ → K} (hval : ∀ i, i < N → values[i]? = some (val i)) :
    ∃ w, t.round (fun a b => decide (b < a)) values = ok (w, val (winner val t.size t.start t.perm)) ∧
      t.perm[w]? = some (winner val t.size t.start t.perm) := by
  have hlen := ht.perm_length
  have hle := ht.le
  have hst := ht.stop
  have h2 := ht.size
  have hi' : t.start < t.perm.length := by omega
  have hc : t.perm[t.start] < N := by simpa using ht.perm.mem_iff.mp (List.getElem_mem hi')
  have hv : vget values t.perm[t.start] = ok (val t.perm[t.start]) := by unfold vget; rw [hval _ hc]
  have hw : winner val t.size t.start t.perm = fight val t.perm[t.start] ((t.perm.drop (t.start + 1)).take (t.stop - (t.start + 1))) := by
    unfold winner
    rw [List.drop_eq_getElem_cons hi', show t.size = (t.stop - (t.start + 1)) + 1 by omega, List.take_succ_cons]
  obtain ⟨w, e1, e2⟩ := round_loop ht.perm hval (t.stop - (t.start + 1)) (t.start + 1) t.start t.perm[t.start] (by omega)
    (List.getElem?_eq_getElem hi')
  refine ⟨w, ?_, ?_⟩
  · unfold Tournament.round
    rw [vget_eq hi', ok_bind, hv, ok_bind, hw]
    exact e1
  · rw [hw]
    exact e2

/-! ## One selection -/

theorem select_assert {t : Tournament} {N : ℕ} (ht : t.Valid N) {bvs : List BV} (hb : bvs.length = N) :
    (decide (2 ≤ t.stop) && decide (t.stop < bvs.length + 1)) = true := by
  have := ht.le
  have := ht.stop
  have := ht.size
  rw [Bool.and_eq_true, decide_eq_true_eq, decide_eq_true_eq]
  omega

theorem select_mid [LinearOrder K] {t : Tournament} {N : ℕ} (ht : t.Valid N) {bvs : List BV} {values : List K} (hb : bvs.length = N)
    {val : ℕ → K} (hval : ∀ i, i < N → values[i]? = some (val i)) (hmid : t.stop + t.size ≤ N) :
    ∃ x, tournamentSelect (fun a b => decide (b < a)) bvs values t =
      pure (winner val t.size t.start t.perm, x, { t with start := t.stop, stop := t.stop + t.size }) := by
  obtain ⟨w, e1, e2⟩ := round_eq ht hval
  have hlt : winner val t.size t.start t.perm < N := by simpa using ht.perm.mem_iff.mp (List.mem_of_getElem? e2)
  refine ⟨bvs[winner val t.size t.start t.perm], ?_⟩
  unfold tournamentSelect
  rw [Dist.assert_bind (select_assert ht hb), e1, Dist.lift_ok, Dist.pure_bind']
  unfold tournamentNext
  rw [if_neg (by omega), Dist.pure_bind']
  have hg : vget t.perm w = ok (winner val t.size t.start t.perm) := by unfold vget; rw [e2]
  dsimp only
  rw [hg, Dist.lift_ok, Dist.pure_bind', vget_eq (by omega), Dist.lift_ok, Dist.pure_bind']

theorem select_last {compare : K → K → Bool} (hc : StrictWeak compare) {t : Tournament} {N : ℕ} (ht : t.Valid N) {bvs : List BV}
    {values : List K} (hb : bvs.length = N) (hv : values.length = N) (hlast : N < t.stop + t.size) :
    ∃ w, w < N ∧ tournamentSelect compare bvs values t =
      permRandom N >>= fun s => pure ((s[w]?).getD 0, (bvs[(s[w]?).getD 0]?).getD [], roundState t.size 0 s) := by
  have hle := ht.le
  obtain ⟨⟨w, v⟩, hw, w1, w2, _⟩ := Tournament.round_spec hc ht hv
  dsimp only at w1 w2
  refine ⟨w, by omega, ?_⟩
  unfold tournamentSelect
  rw [Dist.assert_bind (select_assert ht hb), hw, Dist.lift_ok, Dist.pure_bind']
  unfold tournamentNext
  rw [if_pos (by omega), tournamentInit_eq (N := N) (by exact ht.perm), Dist.bind_assoc']
  refine Dist.bind_congr_support (fun s hs => ?_)
  have hp := permRandom_support hs
  have hlen : s.length = N := by simpa using hp.length_eq
  have hws : w < s.length := by omega
  have hsN : s[w] < bvs.length := by rw [hb]; simpa using hp.mem_iff.mp (List.getElem_mem hws)
  rw [Dist.pure_bind']
  change (Dist.lift (vget s w) >>= _) = _
  rw [vget_eq hws, Dist.lift_ok, Dist.pure_bind', vget_eq hsN, Dist.lift_ok, Dist.pure_bind', List.getElem?_eq_getElem hws, Option.getD_some,
    List.getElem?_eq_getElem hsN, Option.getD_some]

/-! ## The states -/

/-- What comes after a selection which is not the last of its pass, or is. -/
theorem rounds_cycle {j R m : ℕ} (hR : 0 < R) (hj : j = m % R) : (j + 1 < R ∧ (m + 1) % R = j + 1) ∨ (j + 1 = R ∧ (m + 1) % R = 0) := by
  have hlt := Nat.mod_lt m hR
  have h := Nat.add_mod m 1 R
  by_cases h1 : j + 1 < R
  · left
    refine ⟨h1, ?_⟩
    rw [Nat.add_mod, ← hj, Nat.mod_eq_of_lt (show 1 < R by omega), Nat.mod_eq_of_lt h1]
  · right
    have h2 : j + 1 = R := by omega
    refine ⟨h2, ?_⟩
    have : m + 1 = R * (m / R) + R := by
      have := Nat.div_add_mod m R
      omega
    rw [this, Nat.add_mod_right, Nat.mul_mod_right]

/-- Rounds before the last one are followed by a round of the same permutation. -/
theorem round_fits {k j N : ℕ} (hk : 0 < k) (hj : j + 1 < N / k) : (j + 1) * k + k ≤ N := by
  have := (Nat.le_div_iff_mul_le hk).mp hj
  calc (j + 1) * k + k = (j + 1 + 1) * k := by ring
    _ ≤ N := this

theorem round_over {k j N : ℕ} (hk : 0 < k) (hj : j + 1 = N / k) : N < (j + 1) * k + k := by
  have h1 := Nat.div_add_mod N k
  have h2 := Nat.mod_lt N hk
  rw [hj]
  have : k * (N / k) = N / k * k := Nat.mul_comm _ _
  omega

theorem states_law {compare : K → K → Bool} {k N : ℕ} {bvs : List BV} {values : List K} (hk : 2 ≤ k) (hkN : k ≤ N)
    (hmid : ∀ t : Tournament, t.Valid N → t.size = k → t.stop + k ≤ N → ∃ i x, tournamentSelect compare bvs values t =
      pure (i, x, { t with start := t.stop, stop := t.stop + k }))
    (hlast : ∀ t : Tournament, t.Valid N → t.size = k → N < t.stop + k →
      (tournamentSelect compare bvs values t >>= fun r => pure r.2.2) = permRandom N >>= fun s => pure (roundState k 0 s)) : ∀ m : ℕ,
    ((permRandom N >>= fun s => pure (roundState k 0 s)) >>= Dist.forLoop m 0 (fun _ t => do
      let r ← tournamentSelect compare bvs values t
      pure r.2.2)) = permRandom N >>= fun s => pure (roundState k (m % (N / k)) s)
  | 0 => by
    rw [Nat.zero_mod]
    exact Dist.bind_pure' _
  | m + 1 => by
    have hR : 0 < N / k := Nat.div_pos hkN (by omega)
    have hstep : ∀ t, Dist.forLoop (m + 1) 0 (fun _ t => do
        let r ← tournamentSelect compare bvs values t
        pure r.2.2) t = (Dist.forLoop m 0 (fun _ t => do
        let r ← tournamentSelect compare bvs values t
        pure r.2.2) t >>= fun t => tournamentSelect compare bvs values t >>= fun r => pure r.2.2) := fun t => by
      rw [Dist.forLoop_last]
    rw [show (Dist.forLoop (m + 1) 0 (fun _ t => do
        let r ← tournamentSelect compare bvs values t
        pure r.2.2)) = _ from funext hstep, ← Dist.bind_assoc', states_law hk hkN hmid hlast m, Dist.bind_assoc']
    have hjlt := Nat.mod_lt m hR
    rcases rounds_cycle hR rfl with ⟨h1, h2⟩ | ⟨h1, h2⟩
    · rw [h2]
      refine Dist.bind_congr_support (fun s hs => ?_)
      obtain ⟨i, x, e⟩ := hmid (roundState k (m % (N / k)) s) (roundState_valid (permRandom_support hs) hk hjlt) rfl
        (round_fits (by omega) h1)
      rw [Dist.pure_bind', e, Dist.pure_bind']
      congr 1
      simp [roundState]
      ring
    · rw [h2]
      refine Eq.trans (Dist.bind_congr_support (g := fun _ => permRandom N >>= fun s => pure (roundState k 0 s)) (fun s hs => ?_))
        (permRandom_const N _)
      rw [Dist.pure_bind']
      exact hlast (roundState k (m % (N / k)) s) (roundState_valid (permRandom_support hs) hk hjlt) rfl (round_over (by omega) h1)

end Hnco.Prob
