import Verif.Spec.Placement
import Verif.Props.Comparisons
import Verif.Props.Golden
import Verif.Lemmas.Simulate
import Mathlib.LinearAlgebra.AffineSpace.AffineEquiv

/-!
**C122.** Moving a problem, or drawing it to another scale, moves or scales the answer of the solvers that use no derivatives:
`Bisection` and `NelderMead`, and (scale only) `GoldenSearch`.
-/

namespace Verif.Placement

theorem half_eq : (0.5 : ℝ) = 1 / 2 := by norm_num
theorem two_eq : (2.0 : ℝ) = 2 := by norm_num

open Driver Spec Props Relabel Comparisons

variable {A : Type}

/-! ### Bisection -/

theorem place_sub (c b x y : ℝ) : place c b x - place c b y = c * (x - y) := by
  simp only [place]; ring

theorem neg_iff {c : ℝ} (hc : 0 < c) (v : ℝ) : c * v < 0 ↔ v < 0 := by
  have := mul_lt_mul_iff_right₀ (b := v) (c := 0) hc
  rwa [mul_zero] at this

theorem small_iff {c : ℝ} (hc : 0 < c) (x t : ℝ) : |c * x| < c * t ↔ |x| < t := by
  rw [abs_mul, abs_of_pos hc]
  exact mul_lt_mul_iff_right₀ hc

theorem scale_eq {c : ℝ} (hc : 0 < c) (rtol atol b y : ℝ) (hb : rtol = 0 ∨ b = 0) :
    c * atol + rtol * |place c b y| = c * (atol + rtol * |y|) := by
  rcases hb with h | h
  · simp [h]
  · simp only [place, h, add_zero, abs_mul, abs_of_pos hc]; ring

/-- The same settings, for the problem moved by `b` and drawn to the scale `c`. -/
def placeBisection (c b : ℝ) (cfg : Bisection.Cfg ℝ) : Bisection.Cfg ℝ :=
  { cfg with atol := c * cfg.atol, lower := place c b cfg.lower, upper := place c b cfg.upper }


theorem bisection_place_init (c b : ℝ) (hc : 0 < c) (cfg : Bisection.Cfg ℝ) (f f' : ℝ → ℝ × A)
    (h : Redrawn (place c b) (fun v => c * v) f f') (y : ℝ) :
    (∃ e, Bisection.init cfg f y = .error e ∧ Bisection.init (placeBisection c b cfg) f' (place c b y) = .error e) ∨
      ∃ st st', Bisection.init cfg f y = .ok st ∧ Bisection.init (placeBisection c b cfg) f' (place c b y) = .ok st' ∧
        st'.lower = place c b st.lower ∧ st'.upper = place c b st.upper ∧ st'.flip = st.flip ∧
        st'.error = st.error.map (c * ·) := by
  have hlt : ∀ u v : ℝ, c * u < c * v ↔ u < v := fun u v => mul_lt_mul_iff_right₀ hc
  have hneg : ∀ v : ℝ, c * v < 0 ↔ v < 0 := neg_iff hc
  have hpos : ∀ v : ℝ, 0 < c * v ↔ 0 < v := fun v => mul_pos_iff_of_pos_left hc
  by_cases hs : cfg.scalarArgs = false
  · simp only [Bisection.init, placeBisection, hs, if_true]
    exact .inl ⟨_, rfl, rfl⟩
  rcases hfs : cfg.fStruct with ⟨_ | _, _⟩ | _ <;> simp only [Bisection.init, placeBisection, hs, if_false, hfs]
  · rcases hfl : cfg.flip with b | _ | _ <;> simp only
    · exact .inr ⟨_, _, rfl, rfl, rfl, rfl, rfl, rfl⟩
    · simp only [h _, gt_iff_lt, hlt, hneg]
      by_cases he : cfg.expand = true
      · simp only [he, if_true]
        have hm : ∀ nP, Bisection.expandRepeatedly (place c b cfg.lower) (place c b cfg.upper) (c * (f cfg.upper).1)
            (c * (f cfg.lower).1) nP f' =
            (Bisection.expandRepeatedly cfg.lower cfg.upper (f cfg.upper).1 (f cfg.lower).1 nP f).map
              fun p => (place c b p.1, place c b p.2) := by
          intro nP
          simp only [Bisection.expandRepeatedly, hlt]
          refine whileOpt_map (fun p : ℝ × ℝ => (place c b p.1, place c b p.2)) (fun p => ?_) (fun p => ?_) none
            (cfg.lower, cfg.upper)
          · simp only [Bisection.keepExpanding]
            split_ifs <;> simp only [h _, gt_iff_lt, hpos]
          · simp only [Bisection.expandInterval]
            split_ifs <;> simp only [place, two_eq, Prod.mk.injEq, true_and, and_true] <;> ring
        rw [hm]
        cases Bisection.expandRepeatedly cfg.lower cfg.upper (f cfg.upper).1 (f cfg.lower).1 (decide ((f cfg.lower).1 < 0)) f with
        | none => exact .inl ⟨_, rfl, rfl⟩
        | some lu => exact .inr ⟨_, _, rfl, rfl, rfl, rfl, rfl, rfl⟩
      · simp only [he, if_false, Bool.false_eq_true]
        by_cases hd : decide ((f cfg.lower).1 < 0) = decide ((f cfg.upper).1 < 0)
        · simp only [hd, if_true]
          exact .inl ⟨_, rfl, rfl⟩
        · simp only [hd, if_false]
          exact .inr ⟨_, _, rfl, rfl, rfl, rfl, rfl, rfl⟩
    · exact .inl ⟨_, rfl, rfl⟩
  all_goals exact .inl ⟨_, rfl, rfl⟩

/-- **C122** for `Bisection`, with or without interval expansion: if the problem is moved by `b` and drawn to the scale `c`, with the
absolute tolerance to that scale too, the outcome is the old one with the answer moved and scaled.  (A relative tolerance is relative
to the distance from the origin, so it only allows changes of scale.) -/
theorem C122_bisection (c b : ℝ) (hc : 0 < c) (cfg : Bisection.Cfg ℝ) (hb : cfg.rtol = 0 ∨ b = 0) (f f' : ℝ → ℝ × A)
    (h : Redrawn (place c b) (fun v => c * v) f f') (fin fin' : ℝ → Bool) (hfin : ∀ y, fin' (place c b y) = fin y)
    (aux0 : A) (y0 : ℝ) (ms : Option ℕ) (throw : Bool) :
    outcome (iterativeSolve (Bisection.solver (placeBisection c b cfg)) fin' f' aux0 (place c b y0) ms throw) =
      moved (place c b) (outcome (iterativeSolve (Bisection.solver cfg) fin f aux0 y0 ms throw)) := by
  refine (Follows.mk (S := Bisection.solver cfg) (fn := f) (S' := Bisection.solver (placeBisection c b cfg)) (fn' := f')
    (m := place c b)
    (R := fun st st' => st'.lower = place c b st.lower ∧ st'.upper = place c b st.upper ∧ st'.flip = st.flip ∧
        st'.error = st.error.map (c * ·))
    (bisection_place_init c b hc cfg f f' h) ?_ ?_ (fun _ _ _ _ _ _ => rfl) (fun _ _ _ _ _ _ => rfl)).solve (allfinite := fin)
      (allfinite' := fin') hfin aux0 y0 ms throw
  · rintro y st st' ⟨h1, h2, h3, -⟩
    have hneg : decide (c * (f y).1 < 0) = decide ((f y).1 < 0) := by simp only [neg_iff hc]
    simp only [Bisection.solver, Bisection.step, h y, h1, h2, h3, hneg]
    refine ⟨?_, ⟨?_, ?_, trivial, ?_⟩, trivial⟩
    · split_ifs <;> simp only [place, half_eq] <;> ring
    · split_ifs <;> rfl
    · split_ifs <;> rfl
    · rfl
  · rintro y st st' ⟨h1, h2, h3, h4⟩
    show Bisection.terminate (placeBisection c b cfg) (place c b y) st' = Bisection.terminate cfg y st
    simp only [Bisection.terminate, placeBisection, h1, h2, h4, HasAbs.abs_real, scale_eq hc _ _ _ _ hb, place_sub, small_iff hc]
    cases st.error with
    | none => rfl
    | some e => simp only [Option.map_some, small_iff hc]

/-- The mirror image: the ends of the interval are exchanged and `flip`, if it is given, is reversed. -/
def mirrorBisection (cfg : Bisection.Cfg ℝ) : Bisection.Cfg ℝ :=
  { cfg with lower := -cfg.upper, upper := -cfg.lower,
             flip := match cfg.flip with
               | .fixed b => .fixed !b
               | .detect => .detect
               | .other => .other }

/-- **C122** for `Bisection`: the mirror image of the problem has the mirror image of the outcome (without interval expansion). -/
theorem C122_bisection_mirror (cfg : Bisection.Cfg ℝ) (he : cfg.expand = false) (f f' : ℝ → ℝ × A)
    (h : Redrawn (fun y : ℝ => -y) id f f') (fin fin' : ℝ → Bool) (hfin : ∀ y, fin' (-y) = fin y)
    (aux0 : A) (y0 : ℝ) (ms : Option ℕ) (throw : Bool) :
    outcome (iterativeSolve (Bisection.solver (mirrorBisection cfg)) fin' f' aux0 (-y0) ms throw) =
      moved (fun y : ℝ => -y) (outcome (iterativeSolve (Bisection.solver cfg) fin f aux0 y0 ms throw)) := by
  refine (Follows.mk (S := Bisection.solver cfg) (fn := f) (S' := Bisection.solver (mirrorBisection cfg)) (fn' := f')
    (m := fun y : ℝ => -y)
    (R := fun st st' => st'.lower = -st.upper ∧ st'.upper = -st.lower ∧ st'.flip = !st.flip ∧
        st'.error = st.error)
    ?_ ?_ ?_ (fun _ _ _ _ _ _ => rfl) (fun _ _ _ _ _ _ => rfl)).solve (allfinite := fin)
      (allfinite' := fin') hfin aux0 y0 ms throw
  · intro y
    show (∃ e, Bisection.init cfg f y = .error e ∧ Bisection.init (mirrorBisection cfg) f' (-y) = .error e) ∨
      ∃ st st', Bisection.init cfg f y = .ok st ∧ Bisection.init (mirrorBisection cfg) f' (-y) = .ok st' ∧ _
    by_cases hs : cfg.scalarArgs = false
    · simp only [Bisection.init, mirrorBisection, hs, if_true]
      exact .inl ⟨_, rfl, rfl⟩
    rcases hfs : cfg.fStruct with ⟨_ | _, _⟩ | _ <;>
      simp only [Bisection.init, mirrorBisection, hs, if_false, hfs, he, Bool.false_eq_true]
    · rcases hfl : cfg.flip with b | _ | _ <;> simp only
      · exact .inr ⟨_, _, rfl, rfl, rfl, rfl, rfl, rfl⟩
      · simp only [h _, id]
        by_cases hd : decide ((f cfg.lower).1 < 0) = decide ((f cfg.upper).1 < 0)
        · simp only [hd, if_true]
          exact .inl ⟨_, rfl, rfl⟩
        · have hd' : ¬ decide ((f cfg.upper).1 < 0) = decide ((f cfg.lower).1 < 0) := fun e => hd e.symm
          simp only [hd, hd', if_false]
          refine .inr ⟨_, _, rfl, rfl, rfl, rfl, ?_, rfl⟩
          have hne : (f cfg.lower).1 ≠ (f cfg.upper).1 := fun e => hd (by rw [e])
          rcases lt_or_gt_of_ne hne with e | e
          · simp [e, lt_asymm e]
          · simp [e, lt_asymm e]
      · exact .inl ⟨_, rfl, rfl⟩
    all_goals exact .inl ⟨_, rfl, rfl⟩
  · rintro y st st' ⟨h1, h2, h3, -⟩
    simp only [Bisection.solver, Bisection.step, h y, h1, h2, h3, id]
    cases hfl : st.flip <;> by_cases hn : (f y).1 < 0 <;> simp [hn, half_eq] <;> ring
  · rintro y st st' ⟨h1, h2, h3, h4⟩
    show Bisection.terminate (mirrorBisection cfg) (-y) st' = Bisection.terminate cfg y st
    have e : |(-st.upper - -st.lower)| = |st.lower - st.upper| := by congr 1; ring
    simp only [Bisection.terminate, mirrorBisection, h1, h2, h4, HasAbs.abs_real, abs_neg, e]
    rfl

/-- `y² - 2` on `[0, 2]`, and the same moved to `[100, 200]`, three times as large. -/
example (ms : Option ℕ) (y0 : ℝ) :
    let cfg : Bisection.Cfg ℝ := ⟨0, 1e-3, .detect, false, 0, 2, true, .leaf [] true⟩
    outcome (iterativeSolve (Bisection.solver (placeBisection 3 100 cfg)) (fun _ => true)
        (fun x => (3 * (((x - 100) / 3) ^ 2 - 2), ())) () (place 3 100 y0) ms true) =
      moved (place 3 100) (outcome (iterativeSolve (Bisection.solver cfg) (fun _ => true) (fun y => (y ^ 2 - 2, ())) () y0 ms true)) :=
  C122_bisection 3 100 (by norm_num) _ (.inl rfl) _ _ (fun y => by simp only [place]; congr 4; ring) _ _ (fun _ => rfl) _ _ _ _

/-- `y³ - 2` on `[0, 2]`, and its mirror image. -/
example (ms : Option ℕ) (y0 : ℝ) :
    let cfg : Bisection.Cfg ℝ := ⟨1e-3, 1e-3, .detect, false, 0, 2, true, .leaf [] true⟩
    outcome (iterativeSolve (Bisection.solver (mirrorBisection cfg)) (fun _ => true)
        (fun x => ((-x) ^ 3 - 2, ())) () (-y0) ms true) =
      moved (fun y : ℝ => -y) (outcome (iterativeSolve (Bisection.solver cfg) (fun _ => true) (fun y => (y ^ 3 - 2, ())) () y0 ms true)) :=
  C122_bisection_mirror _ rfl _ _ (fun y => by simp) _ _ (fun _ => rfl) _ _ _ _

/-! ### Golden-section search -/

/-- The same settings, for the problem moved by `b` and drawn to the scale `c`. -/
def placeGolden (c b : ℝ) (cfg : Golden.Cfg) : Golden.Cfg :=
  { cfg with atol := c * cfg.atol, lower := place c b cfg.lower, upper := place c b cfg.upper }

theorem ratio_eq {c : ℝ} (hc : 0 < c) (x t : ℝ) : c * x / (c * t) = x / t := mul_div_mul_left x t hc.ne'

/-- **C122** for `GoldenSearch`, changes of scale.  Missing: moving the problem, see `C122_golden_shift_false`. -/
theorem C122_golden_scale_partial (c : ℝ) (hc : 0 < c) (cfg : Golden.Cfg) (f f' : ℝ → ℝ × A)
    (h : Redrawn (place c 0) (fun v => c * v) f f') (fin fin' : ℝ → Bool) (hfin : ∀ y, fin' (place c 0 y) = fin y)
    (aux0 : A) (y0 : ℝ) (ms : Option ℕ) (throw : Bool) :
    outcome (iterativeSolve (Golden.solver (placeGolden c 0 cfg)) fin' f' aux0 (place c 0 y0) ms throw) =
      moved (place c 0) (outcome (iterativeSolve (Golden.solver cfg) fin f aux0 y0 ms throw)) := by
  have hlt : ∀ u v : ℝ, c * u < c * v ↔ u < v := fun u v => mul_lt_mul_iff_right₀ hc
  have hcg : ∀ y : ℝ, f' (c * y) = (c * (f y).1, (f y).2) := fun y => by simpa [place] using h y
  have habs : ∀ x : ℝ, |c * x| = c * |x| := fun x => by rw [abs_mul, abs_of_pos hc]
  have hsc : ∀ t : ℝ, c * cfg.atol + cfg.rtol * (c * t) = c * (cfg.atol + cfg.rtol * t) := fun t => by ring
  refine (Follows.mk (S := Golden.solver cfg) (fn := f) (S' := Golden.solver (placeGolden c 0 cfg)) (fn' := f') (m := place c 0)
    (R := fun st st' => st'.lower = c * st.lower ∧ st'.middle = c * st.middle ∧ st'.upper = c * st.upper ∧
      st'.first = st.first ∧ st'.fMiddle = c * st.fMiddle ∧ st'.terminate = st.terminate)
    ?_ ?_ ?_ (fun _ _ _ _ _ _ => rfl) (fun _ _ _ _ _ _ => rfl)).solve (allfinite := fin) (allfinite' := fin') hfin aux0 y0 ms throw
  · intro y
    show (∃ e, Golden.init cfg f y = .error e ∧ Golden.init (placeGolden c 0 cfg) f' (place c 0 y) = .error e) ∨
      ∃ st st', Golden.init cfg f y = .ok st ∧ Golden.init (placeGolden c 0 cfg) f' (place c 0 y) = .ok st' ∧ _
    by_cases hs : cfg.scalarArgs = false
    · simp only [Golden.init, placeGolden, hs, if_true]
      exact .inl ⟨_, rfl, rfl⟩
    rcases hfs : cfg.fStruct with ⟨_ | _, _⟩ | _ <;> simp only [Golden.init, placeGolden, hs, if_false, hfs]
    · refine .inr ⟨_, _, rfl, rfl, ?_⟩
      have e : (place c 0 cfg.upper - place c 0 cfg.lower) / ((1 + Real.sqrt 5) / 2 + 1) =
          c * ((cfg.upper - cfg.lower) / ((1 + Real.sqrt 5) / 2 + 1)) := by rw [place_sub]; ring
      simp only [e, hcg]
      refine ⟨?_, trivial, ?_, trivial, trivial, trivial⟩ <;> simp [place]
    all_goals exact .inl ⟨_, rfl, rfl⟩
  · rintro y st st' ⟨h1, h2, h3, h4, h5, h6⟩
    have ey : (if st.first = true then c * st.lower + (c * st.upper - c * st.middle) else place c 0 y) =
        c * (if st.first = true then st.lower + (st.upper - st.middle) else y) := by
      split_ifs
      · ring
      · simp [place]
    simp only [Golden.solver, Golden.step, h1, h2, h3, h4, h5, ey, hcg]
    generalize (if st.first = true then st.lower + (st.upper - st.middle) else y) = p
    simp only [hlt, cauchyTermination, scaledDiff, placeGolden, HasAbs.abs_real, ← mul_sub, habs, hsc, ratio_eq hc]
    split_ifs <;> refine ⟨?_, ⟨rfl, rfl, rfl, rfl, rfl, rfl⟩, trivial⟩ <;> simp only [place] <;> ring
  · rintro y st st' ⟨h1, h2, h3, h4, h5, h6⟩
    simp only [Golden.solver, h6]

/-- **C122** is false for `GoldenSearch` when the problem is moved: it finds the minimum of `(y - 0.6)²` on `[0, 1]`, but on the same
problem moved by `-11` it never stops.  (The first middle point is `(upper - lower) / (φ + 1)` wherever the interval is.) -/
theorem C122_golden_shift_false (atol : ℝ) (ha : 0 < atol) (ht : atol < 1) (y0 : ℝ) :
    let cfg : Golden.Cfg := ⟨0, atol, 0, 1, true, .leaf [] true⟩
    let f : ℝ → ℝ × Unit := fun y => ((y - 0.6) ^ 2, ())
    let f' : ℝ → ℝ × Unit := fun x => ((x + 10.4) ^ 2, ())
    Redrawn (place 1 (-11)) id f f' ∧
    (∃ N, ∀ ms, (∀ n, ms = some n → N ≤ n) → ∃ sol,
      minimise (Golden.solver cfg) cfg.fStruct (fun _ => true) f () y0 ms false = some (.ok sol) ∧ sol.result = .successful ∧
        |sol.value - 0.6| < Real.goldenRatio ^ 2 * atol) ∧
    ∀ ms sol, minimise (Golden.solver (placeGolden 1 (-11) cfg)) cfg.fStruct (fun _ => true) f' () (place 1 (-11) y0) ms false =
      some (.ok sol) → sol.result = .nonlinearMaxStepsReached := by
  intro cfg f f'
  have hu : Unimodal (fun t => (f t).1) cfg.lower cfg.upper 0.6 := by
    refine ⟨by norm_num [cfg], fun a ha b hb hab => ?_, fun a ha b hb hab => ?_⟩
    · have := hb.2; simp only [f] at *; nlinarith
    · have := ha.1; simp only [f] at *; nlinarith
  refine ⟨fun y => by simp only [place, f, f', id]; congr 2; ring, ?_, ?_⟩
  · obtain ⟨N, hN⟩ := C19_terminates_partial cfg rfl (by norm_num [cfg]) ha le_rfl rfl rfl f
      (by simp only [f]; fun_prop) () y0
    refine ⟨N, fun ms hms => ?_⟩
    obtain ⟨sol, h1, h2, -⟩ := hN ms false hms
    obtain ⟨st0, n, -, -, h3⟩ := C19_answer_near_minimiser_partial cfg rfl (by norm_num [cfg]) ha le_rfl f () y0 _ ms false sol 0.6 hu
      h1 h2
    exact ⟨sol, h1, h2, by simpa [cfg] using h3⟩
  · have e : placeGolden 1 (-11) cfg = ⟨0, atol, -11, -10, true, .leaf [] true⟩ := by
      simp only [placeGolden, place, cfg]; norm_num
    rw [e]
    exact (C19_never_converges 0 atol ha le_rfl (by linarith)).2 _

/-- `(y - 0.6)²` on `[0, 1]`, in metres and in millimetres. -/
example (ms : Option ℕ) (y0 : ℝ) :
    let cfg : Golden.Cfg := ⟨1e-3, 1e-3, 0, 1, true, .leaf [] true⟩
    outcome (iterativeSolve (Golden.solver (placeGolden 1000 0 cfg)) (fun _ => true)
        (fun x => (1000 * ((x / 1000 - 0.6) ^ 2), ())) () (place 1000 0 y0) ms true) =
      moved (place 1000 0) (outcome (iterativeSolve (Golden.solver cfg) (fun _ => true) (fun y => ((y - 0.6) ^ 2, ())) () y0 ms true)) :=
  C122_golden_scale_partial 1000 (by norm_num) _ _ _ (fun y => by simp only [place]; congr 4; ring) _ _ (fun _ => rfl) _ _ _ _

/-! ### Nelder-Mead -/

section nm

variable {n : ℕ} [NeZero n] {ι ι' : Type}

theorem affine_along (T : (ι → ℝ) →ᵃ[ℝ] (ι' → ℝ)) (w d : ι → ℝ) (c : ℝ) :
    T (NelderMead.along w d c) = NelderMead.along (T w) (T.linear d) c := by
  have e : NelderMead.along w d c = c • d +ᵥ w := by
    funext i; simp only [NelderMead.along, vadd_eq_add, Pi.add_apply, Pi.smul_apply, smul_eq_mul]; ring
  rw [e, T.map_vadd, map_smul]
  funext i
  simp only [NelderMead.along, vadd_eq_add, Pi.add_apply, Pi.smul_apply, smul_eq_mul]; ring

theorem affine_direction (T : (ι → ℝ) →ᵃ[ℝ] (ι' → ℝ)) (s : Fin n → ι → ℝ) (w : ι → ℝ) :
    NelderMead.searchDirection (fun i => T (s i)) (T w) = T.linear (NelderMead.searchDirection s w) := by
  have e : NelderMead.searchDirection s w = ∑ i, ((n : ℝ) - 1)⁻¹ • (s i -ᵥ w) := by
    funext c
    simp only [NelderMead.searchDirection, Finset.sum_apply, Pi.smul_apply, vsub_eq_sub, Pi.sub_apply, smul_eq_mul, div_eq_inv_mul]
  rw [e, map_sum]
  simp only [map_smul, T.linearMap_vsub]
  funext c
  simp only [NelderMead.searchDirection, Finset.sum_apply, Pi.smul_apply, smul_eq_mul, vsub_eq_sub, Pi.sub_apply, div_eq_inv_mul]

theorem affine_shrink (T : (ι → ℝ) →ᵃ[ℝ] (ι' → ℝ)) (x b : ι → ℝ) :
    (fun c => T b c + 1 / 2 * (T x c - T b c)) = T fun c => b c + 1 / 2 * (x c - b c) := by
  have h := affine_along T b (x -ᵥ b) (1 / 2)
  rw [T.linearMap_vsub] at h
  exact h.symm

variable (T : (ι → ℝ) →ᵃ[ℝ] (ι' → ℝ)) (φ : NelderMead.Val → NelderMead.Val) (f : (ι → ℝ) → NelderMead.Val × A)
  (f' : (ι' → ℝ) → NelderMead.Val × A)

/-- The second state is the first, redrawn. -/
structure NMPlaced (st : NelderMead.State n ι A) (st' : NelderMead.State n ι' A) : Prop where
  simplex : ∀ i, st'.simplex i = T (st.simplex i)
  stats : st'.stats = st.stats
  firstPass : st'.firstPass = st.firstPass
  aux : st'.aux = st.aux
  best : st'.best = T st.best
  worst : st'.worst = T st.worst
  worstIndex : st'.worstIndex = st.worstIndex
  start : st.firstPass = true → (∀ i, st.fSimplex i = ⊤ ∧ st'.fSimplex i = ⊤) ∧ st.fBest = (0 : ℝ) ∧ st'.fBest = (0 : ℝ)
  values : st.firstPass = false → (∀ i, st'.fSimplex i = φ (st.fSimplex i)) ∧ st'.fBest = φ st.fBest ∧ st'.fWorst = φ st.fWorst ∧
    st'.fSecondWorst = φ st.fSecondWorst

theorem finish_placed (hφ : StrictMono φ) (st : NelderMead.State n ι A) (st' : NelderMead.State n ι' A) (r : NMPlaced T φ st st')
    (stats : NelderMead.Stats) (aux : A) (w w' : Fin n → NelderMead.Val) (sx : Fin n → ι → ℝ) (sx' : Fin n → ι' → ℝ)
    (hw : ∀ i, w' i = φ (w i)) (hs : ∀ i, sx' i = T (sx i)) :
    (finish st' stats aux (w', sx')).1 = T (finish st stats aux (w, sx)).1 ∧
      NMPlaced T φ (finish st stats aux (w, sx)).2.1 (finish st' stats aux (w', sx')).2.1 ∧
      (finish st' stats aux (w', sx')).2.2 = (finish st stats aux (w, sx)).2.2 := by
  have hlt : ∀ a b, w' a < w' b ↔ w a < w b := fun a b => by rw [hw, hw, hφ.lt_iff_lt]
  have e1 : NelderMead.topMax w' = NelderMead.topMax w := by
    simp only [NelderMead.topMax, argmax_congr w w' hlt]
  have e2 : NelderMead.topMin w' = NelderMead.topMin w := by
    simp only [NelderMead.topMin, argmin_congr w w' hlt]
  have e3 : NelderMead.secondMax w' = φ (NelderMead.secondMax w) := by
    simp only [NelderMead.secondMax, e1, argmax_congr w w' hlt, hw]
  refine ⟨by simp only [finish, e2, r.simplex], ⟨hs, rfl, rfl, rfl, ?_, ?_, e1, fun h => by simp [finish] at h,
    fun _ => ⟨hw, ?_, ?_, e3⟩⟩, rfl⟩
  · simp only [finish, e2, r.simplex]
  · simp only [finish, e1, r.simplex]
  · simp only [finish, e2, hw]
  · simp only [finish, e1, hw]

theorem nm_step_first (g : (ι → ℝ) → NelderMead.Val × A) (y : ι → ℝ) (s : NelderMead.State n ι A) (hs : s.firstPass = true) :
    NelderMead.step g y s = finish s (NelderMead.updateStats s.stats false false false false true) s.aux
      (fun i => (g (s.simplex i)).1, s.simplex) := by
  simp [NelderMead.step, hs, NelderMead.initStep, NelderMead.shrinkSimplex, finish]

theorem nm_step_main (g : (ι → ℝ) → NelderMead.Val × A) (y : ι → ℝ) (s : NelderMead.State n ι A) (hs : s.firstPass = false) :
    NelderMead.step g y s =
      finish s (NelderMead.updateStats (NelderMead.mainStep g s).2.2.1 false false false false
          (decide (s.fWorst < (NelderMead.mainStep g s).2.1))) (NelderMead.mainStep g s).2.2.2
        (if decide (s.fWorst < (NelderMead.mainStep g s).2.1) then
          NelderMead.shrinkSimplex g (if decide ((NelderMead.mainStep g s).2.1 < s.fBest) then (NelderMead.mainStep g s).1 else s.best)
            s.simplex false
        else NelderMead.updateSimplex s.worstIndex (NelderMead.mainStep g s).1 (NelderMead.mainStep g s).2.1 s.fSimplex s.simplex) := by
  simp only [NelderMead.step, hs, Bool.false_eq_true, if_false, finish]

theorem nm_step_placed (hφ : StrictMono φ) (h : Redrawn T φ f f') (y : ι → ℝ) (y' : ι' → ℝ) (st : NelderMead.State n ι A)
    (st' : NelderMead.State n ι' A) (r : NMPlaced T φ st st') :
    (NelderMead.step f' y' st').1 = T (NelderMead.step f y st).1 ∧
      NMPlaced T φ (NelderMead.step f y st).2.1 (NelderMead.step f' y' st').2.1 ∧
      (NelderMead.step f' y' st').2.2 = (NelderMead.step f y st).2.2 := by
  have h' : ∀ y, f' (T y) = (φ (f y).1, (f y).2) := h
  cases hfp : st.firstPass with
  | true =>
    rw [nm_step_first f y st hfp, nm_step_first f' y' st' (r.firstPass.trans hfp), r.stats, r.aux]
    exact finish_placed T φ hφ st st' r _ _ _ _ _ _ (fun i => by rw [r.simplex, h]) r.simplex
  | false =>
    obtain ⟨hv, hb, hw, h2⟩ := r.values hfp
    have hm : NelderMead.mainStep f' st' = (T (NelderMead.mainStep f st).1, φ (NelderMead.mainStep f st).2.1,
        (NelderMead.mainStep f st).2.2.1, (NelderMead.mainStep f st).2.2.2) := by
      have hd : NelderMead.searchDirection st'.simplex (T st.worst) = T.linear (NelderMead.searchDirection st.simplex st.worst) := by
        rw [← affine_direction]
        congr 1
        funext i
        exact r.simplex i
      have hi : ∀ v fv s, NelderMead.internalEval (φ st.fBest) (φ st.fWorst) (φ st.fSecondWorst) (T st.worst)
          (T.linear (NelderMead.searchDirection st.simplex st.worst)) (T v) (φ fv) s =
          (T (NelderMead.internalEval st.fBest st.fWorst st.fSecondWorst st.worst
              (NelderMead.searchDirection st.simplex st.worst) v fv s).1,
            (NelderMead.internalEval st.fBest st.fWorst st.fSecondWorst st.worst
              (NelderMead.searchDirection st.simplex st.worst) v fv s).2) := by
        intro v fv s
        simp only [NelderMead.internalEval, hφ.lt_iff_lt, ← affine_along]
        split_ifs <;> rfl
      simp only [NelderMead.mainStep, hd, r.worst, r.stats, hb, hw, h2, ← affine_along, h', hi]
    have hn : (NelderMead.mainStep f st).2.1 = (f (NelderMead.mainStep f st).1).1 := rfl
    rw [nm_step_main f y st hfp, nm_step_main f' y' st' (r.firstPass.trans hfp), hm]
    simp only [hb, hw, hφ.lt_iff_lt, r.best, r.worstIndex, NelderMead.shrinkSimplex, Bool.false_eq_true, if_false]
    by_cases hc : st.fWorst < (NelderMead.mainStep f st).2.1
    · simp only [hc, decide_true, if_true]
      have hx : ∀ i, (fun c => (if decide ((NelderMead.mainStep f st).2.1 < st.fBest) = true then T (NelderMead.mainStep f st).1
            else T st.best) c + 1 / 2 * (st'.simplex i c - (if decide ((NelderMead.mainStep f st).2.1 < st.fBest) = true then
            T (NelderMead.mainStep f st).1 else T st.best) c)) =
          T fun c => (if decide ((NelderMead.mainStep f st).2.1 < st.fBest) = true then (NelderMead.mainStep f st).1 else st.best) c +
            1 / 2 * (st.simplex i c -
              (if decide ((NelderMead.mainStep f st).2.1 < st.fBest) = true then (NelderMead.mainStep f st).1 else st.best) c) := by
        intro i
        rw [r.simplex, ← affine_shrink]
        split_ifs <;> rfl
      refine finish_placed T φ hφ st st' r _ _ _ _ _ _ (fun i => ?_) (fun i => hx i)
      exact (congrArg (fun v => (f' v).1) (hx i)).trans (by rw [h'])
    · simp only [hc, decide_false, Bool.false_eq_true, if_false]
      refine finish_placed T φ hφ st st' r _ _ _ _ _ _ (fun i => ?_) (fun i => ?_)
      · by_cases hi : i = st.worstIndex <;> simp [hi, hv]
      · by_cases hi : i = st.worstIndex <;> simp [hi, r.simplex]

theorem nm_init_placed (cfg : NelderMead.Cfg n ι) (cfg' : NelderMead.Cfg n ι') (aux0 : A) (y : ι → ℝ)
    (hs : ∀ i, cfg'.mkSimplex (T y) i = T (cfg.mkSimplex y i)) :
    (∃ e, (NelderMead.init cfg aux0 y : Except Err (NelderMead.State n ι A)) = .error e ∧
        (NelderMead.init cfg' aux0 (T y) : Except Err (NelderMead.State n ι' A)) = .error e) ∨
      ∃ st st', NelderMead.init cfg aux0 y = .ok st ∧ NelderMead.init cfg' aux0 (T y) = .ok st' ∧ NMPlaced T φ st st' := by
  unfold NelderMead.init
  split
  · exact .inl ⟨_, rfl, rfl⟩
  · exact .inr ⟨_, _, rfl, rfl, hs, rfl, rfl, rfl, hs 0, hs 0, rfl, fun _ => ⟨fun _ => ⟨rfl, rfl⟩, rfl, rfl⟩, fun h => nomatch h⟩

/-- **C122** for `NelderMead`, the course of the solve: let the problem be redrawn by any affine map `T` (moved, scaled, rotated,
sheared, embedded into a larger space) and its values changed by any strictly increasing `φ`.  If the initial simplex is redrawn too,
so are the iterates and simplices after every step; the statistics and the aux are the same. -/
theorem C122_nelder_mead_course (hφ : StrictMono φ) (h : Redrawn T φ f f') (cfg : NelderMead.Cfg n ι) (cfg' : NelderMead.Cfg n ι')
    (aux0 : A) (y0 : ι → ℝ) (hs : ∀ i, cfg'.mkSimplex (T y0) i = T (cfg.mkSimplex y0 i)) :
    (∃ e, (NelderMead.solver cfg aux0).init f y0 = .error e ∧ (NelderMead.solver cfg' aux0).init f' (T y0) = .error e) ∨
      ∃ st st', (NelderMead.solver cfg aux0).init f y0 = .ok st ∧ (NelderMead.solver cfg' aux0).init f' (T y0) = .ok st' ∧
        ∀ k, iterateAt (NelderMead.solver cfg' aux0) f' aux0 (T y0) st' k =
            T (iterateAt (NelderMead.solver cfg aux0) f aux0 y0 st k) ∧
          auxAt (NelderMead.solver cfg' aux0) f' aux0 (T y0) st' k = auxAt (NelderMead.solver cfg aux0) f aux0 y0 st k ∧
          (∀ i, (stateAt (NelderMead.solver cfg' aux0) f' aux0 (T y0) st' k).simplex i =
            T ((stateAt (NelderMead.solver cfg aux0) f aux0 y0 st k).simplex i)) ∧
          (stateAt (NelderMead.solver cfg' aux0) f' aux0 (T y0) st' k).stats =
            (stateAt (NelderMead.solver cfg aux0) f aux0 y0 st k).stats := by
  rcases nm_init_placed T φ cfg cfg' aux0 y0 hs with h | ⟨st, st', h1, h2, h3⟩
  · exact .inl h
  · refine .inr ⟨st, st', h1, h2, fun k => ?_⟩
    obtain ⟨e1, e2, e3⟩ := Cx.trace_rel (S := NelderMead.solver cfg aux0) (fn := f) (S' := NelderMead.solver cfg' aux0) (fn' := f')
      (m := T) aux0 y0 st st' k (fun j _ st' hr =>
        nm_step_placed T φ f f' hφ h (iterateAt (NelderMead.solver cfg aux0) f aux0 y0 st j)
          (T (iterateAt (NelderMead.solver cfg aux0) f aux0 y0 st j)) _ _ hr) h3 k le_rfl
    exact ⟨e1, e3, e2.simplex, e2.stats⟩

/-- Any invertible affine change of coordinates (for example a rotation), with `exp` of the objective. -/
example (T : (Fin 2 → ℝ) ≃ᵃ[ℝ] (Fin 2 → ℝ)) (cfg : NelderMead.Cfg 3 (Fin 2)) (y0 : Fin 2 → ℝ) :
    let f : (Fin 2 → ℝ) → NelderMead.Val × Unit := fun y => ((((y 0 - 1) ^ 2 + y 1 ^ 2 : ℝ) : NelderMead.Val), ())
    let f' : (Fin 2 → ℝ) → NelderMead.Val × Unit := fun x => (WithTop.map Real.exp (f (T.symm x)).1, ())
    Redrawn (T : (Fin 2 → ℝ) →ᵃ[ℝ] (Fin 2 → ℝ)) (WithTop.map Real.exp) f f' ∧ StrictMono (WithTop.map Real.exp) ∧
      ∀ i, ({ cfg with mkSimplex := fun x i => T (cfg.mkSimplex (T.symm x) i) } : NelderMead.Cfg 3 (Fin 2)).mkSimplex (T y0) i =
        T (cfg.mkSimplex y0 i) :=
  ⟨fun y => by simp, StrictMono.withTop_map Real.exp_strictMono, fun i => by simp⟩

end nm

/-- Values to the scale `c`, plus `d`; an infinite value stays infinite. -/
def placeValue (c d : ℝ) : NelderMead.Val → NelderMead.Val := WithTop.map (place c d)

theorem placeValue_strictMono {c : ℝ} (hc : 0 < c) (d : ℝ) : StrictMono (placeValue c d) :=
  StrictMono.withTop_map fun x y h => by simp only [place]; linarith [mul_lt_mul_of_pos_left h hc]

/-- `placePoint` as an affine map. -/
def placeMap {ι : Type} (c : ℝ) (b : ι → ℝ) : (ι → ℝ) →ᵃ[ℝ] (ι → ℝ) where
  toFun := placePoint c b
  linear := c • LinearMap.id
  map_vadd' p v := by
    funext i
    simp only [placePoint, vadd_eq_add, Pi.add_apply, LinearMap.smul_apply, LinearMap.id_apply, Pi.smul_apply, smul_eq_mul]; ring

/-- **C122** for `NelderMead`: if the problem is moved by `b` and drawn to the scale `c`, its values to the same scale `c` plus `d`
(the tolerances of points and values are the same, so their scales must be), and the initial simplex and the absolute tolerance are
changed accordingly, the outcome is the old one with the answer moved and scaled.  (A relative tolerance only allows changes of
scale.) -/
theorem C122_nelder_mead {n : ℕ} [NeZero n] {ι : Type} (c : ℝ) (hc : 0 < c) (b : ι → ℝ) (d : ℝ) (cfg cfg' : NelderMead.Cfg n ι)
    (hr : cfg'.rtol = cfg.rtol) (ha : cfg'.atol = c * cfg.atol) (hx : cfg'.normX = cfg.normX) (hf : cfg'.normF = cfg.normF)
    (hs : ∀ y i, cfg'.mkSimplex (placePoint c b y) i = placePoint c b (cfg.mkSimplex y i))
    (hb : cfg.rtol = 0 ∨ (b = 0 ∧ d = 0)) (f f' : (ι → ℝ) → NelderMead.Val × A)
    (h : Redrawn (placePoint c b) (placeValue c d) f f') (fin fin' : (ι → ℝ) → Bool)
    (hfin : ∀ y, fin' (placePoint c b y) = fin y) (aux0 : A) (y0 : ι → ℝ) (ms : Option ℕ) (throw : Bool) :
    outcome (iterativeSolve (NelderMead.solver cfg' aux0) fin' f' aux0 (placePoint c b y0) ms throw) =
      moved (placePoint c b) (outcome (iterativeSolve (NelderMead.solver cfg aux0) fin f aux0 y0 ms throw)) := by
  refine (Follows.mk (S := NelderMead.solver cfg aux0) (fn := f) (S' := NelderMead.solver cfg' aux0) (fn' := f')
    (m := placePoint c b) (R := NMPlaced (placeMap c b) (placeValue c d))
    (fun y => nm_init_placed (placeMap c b) _ cfg cfg' aux0 y (hs y))
    (fun y st st' r => nm_step_placed (placeMap c b) _ f f' (placeValue_strictMono hc d) h y (placePoint c b y) _ _ r) ?_
    (fun _ _ _ _ _ _ => rfl) (fun _ _ _ _ _ _ => rfl)).solve (allfinite := fin) (allfinite' := fin') hfin aux0 y0 ms throw
  intro y st st' r
  show NelderMead.terminate cfg' st' = NelderMead.terminate cfg st
  cases hfp : st.firstPass with
  | true =>
    obtain ⟨h1, h2, h3⟩ := r.start hfp
    have e : ∀ s : NelderMead.State n ι A, (∀ i, s.fSimplex i = ⊤) → s.fBest = (0 : ℝ) → ∀ g : NelderMead.Cfg n ι,
        NelderMead.terminate g s = (false, .successful) := by
      intro s hs hb g
      simp [NelderMead.terminate, hs, hb]
    rw [e st (fun i => (h1 i).1) h2, e st' (fun i => (h1 i).2) h3]
  | false =>
    obtain ⟨hv, hfb, -, -⟩ := r.values hfp
    have ex : ∀ (i : Fin n) j, |st'.simplex i j - st'.best j| / (cfg'.atol + cfg'.rtol * |st'.best j|) =
        |st.simplex i j - st.best j| / (cfg.atol + cfg.rtol * |st.best j|) := by
      intro i j
      have e1 : st'.simplex i j = place c (b j) (st.simplex i j) := congrFun (r.simplex i) j
      have e2 : st'.best j = place c (b j) (st.best j) := congrFun r.best j
      rw [e1, e2, ha, hr, scale_eq hc _ _ _ _ (hb.imp_right fun h => congrFun h.1 j), place_sub, abs_mul, abs_of_pos hc,
        ratio_eq hc]
    have et : ∀ v, placeValue c d v = ⊤ ↔ v = ⊤ := fun v => WithTop.map_eq_top_iff
    have ef : st.fBest ≠ ⊤ → (∀ i, st.fSimplex i ≠ ⊤) → ∀ i,
        |(st'.fSimplex i).untopD 0 - st'.fBest.untopD 0| / (cfg'.atol + cfg'.rtol * |st'.fBest.untopD 0|) =
        |(st.fSimplex i).untopD 0 - st.fBest.untopD 0| / (cfg.atol + cfg.rtol * |st.fBest.untopD 0|) := by
      intro h1 h2 i
      obtain ⟨u, hu⟩ := WithTop.ne_top_iff_exists.1 h1
      obtain ⟨v, hv'⟩ := WithTop.ne_top_iff_exists.1 (h2 i)
      rw [hv, hfb, ← hu, ← hv']
      simp only [placeValue, WithTop.map_coe, WithTop.untopD_coe]
      rw [ha, hr, scale_eq hc _ _ _ _ (hb.imp_right fun h => h.2), place_sub, abs_mul, abs_of_pos hc, ratio_eq hc]
    have t1 : (∀ i, st'.fSimplex i ≠ ⊤) ↔ ∀ i, st.fSimplex i ≠ ⊤ := by simp only [hv, ne_eq, et]
    have t2 : st'.fBest = ⊤ ↔ st.fBest = ⊤ := by rw [hfb, et]
    by_cases h1 : st.fBest = ⊤
    · simp only [NelderMead.terminate, t2, h1, ne_eq, not_true_eq_false, decide_false, Bool.and_false, Bool.false_and]
    by_cases h2 : ∀ i, st.fSimplex i ≠ ⊤
    · simp only [NelderMead.terminate, t1, t2, ne_eq, ex, ef h1 h2, hx, hf]
    · simp only [NelderMead.terminate, t1, t2, ne_eq, h2, h1, not_false_eq_true, decide_false, Bool.false_and, Bool.and_false]

/-- The initial simplex of the code is redrawn with the problem: with displacements to the scale `c`, and without relative
displacements if the problem is moved. -/
theorem C122_initial_simplex {L : ℕ} (sizes : Fin L → ℕ) (c rdelta adelta : ℝ) (b : NelderMead.Entry sizes → ℝ)
    (hb : rdelta = 0 ∨ b = 0) (y : NelderMead.Entry sizes → ℝ) (i : Fin (NelderMead.totalSize sizes + 1)) :
    NelderMead.initialSimplex sizes rdelta (c * adelta) (placePoint c b y) i =
      placePoint c b (NelderMead.initialSimplex sizes rdelta adelta y i) := by
  funext e
  simp only [NelderMead.initialSimplex, placePoint]
  split
  · rcases hb with h | h <;> simp only [h, Pi.zero_apply] <;> ring
  · rfl

/-- `(y₁ - 2)² + (y₂ - 2)²`, moved and seven times as large. -/
example (ms : Option ℕ) (y0 b : NelderMead.Entry ![1, 1] → ℝ) :
    outcome (iterativeSolve (NelderMead.solver (NelderMead.cfgFor ![1, 1] 0 (7 * 1e-3) maxNorm maxNorm 0 (7 * 0.25)) ()) (fun _ => true)
        (fun x => (((7 * (∑ e, ((x e - b e) / 7 - 2) ^ 2) + 0 : ℝ) : NelderMead.Val), ())) () (placePoint 7 b y0) ms true) =
      moved (placePoint 7 b) (outcome (iterativeSolve (NelderMead.solver (NelderMead.cfgFor ![1, 1] 0 1e-3 maxNorm maxNorm 0 0.25) ())
        (fun _ => true) (fun y => (((∑ e, (y e - 2) ^ 2 : ℝ) : NelderMead.Val), ())) () y0 ms true)) :=
  C122_nelder_mead 7 (by norm_num) b 0 (NelderMead.cfgFor ![1, 1] 0 1e-3 maxNorm maxNorm 0 0.25)
    (NelderMead.cfgFor ![1, 1] 0 (7 * 1e-3) maxNorm maxNorm 0 (7 * 0.25)) rfl rfl rfl rfl
    (C122_initial_simplex ![1, 1] 7 0 0.25 b (.inl rfl)) (.inl rfl) _ _
    (fun y => by
      have e : ∀ e, (7 * y e + b e - b e) / 7 = y e := fun e => by ring
      simp only [placePoint, placeValue, WithTop.map_coe, place, e]) _ _ (fun _ => rfl) _ _ _ _

end Verif.Placement
