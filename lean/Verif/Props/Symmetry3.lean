import Verif.Props.Symmetry2
import Verif.Props.EndToEnd2
/-!
# C152 a moved surface gives the moved solution
-/
set_option linter.unusedSimpArgs false
set_option linter.unusedSectionVars false
namespace CM.Pipe
open Finset CM.HS CM.FFT CM.System CM.Spec CM.Fourier

variable {nx ny nx' ny' : ℕ} {sx sy sx' sy' : ℝ} {σ : ℕ × ℕ → ℕ × ℕ} {T T' : Topo} {kw : OptimizerKwargs}

/-! ## The moves are renumberings -/

lemma renumbers_translation (hx : 0 < nx) (hy : 0 < ny) (a b : ℕ) : Renumbers (translation nx ny a b) nx ny nx ny := by
  have cancel : ∀ n, 0 < n → ∀ a i k : ℕ, i < n → k < n → (i + a) % n = (k + a) % n → i = k := by
    intro n hn a i k hi hk h
    have h1 : i + a ≡ k + a [MOD n] := h
    have h2 : i ≡ k [MOD n] := Nat.ModEq.add_right_cancel' a h1
    have h3 : i % n = k % n := h2
    rwa [Nat.mod_eq_of_lt hi, Nat.mod_eq_of_lt hk] at h3
  have onto : ∀ n, 0 < n → ∀ a k : ℕ, k < n → ∃ i < n, (i + a) % n = k := by
    intro n hn a k hk
    refine ⟨(k + (n - a % n)) % n, Nat.mod_lt _ hn, ?_⟩
    have ha : a % n < n := Nat.mod_lt _ hn
    rw [Nat.mod_add_mod, ← Nat.add_mod_mod, show k + (n - a % n) + a % n = k + n by omega, Nat.add_mod_right, Nat.mod_eq_of_lt hk]
  refine ⟨fun i _ j _ => ⟨Nat.mod_lt _ hx, Nat.mod_lt _ hy⟩, fun i hi j hj k hk l hl h => ?_, fun k hk l hl => ?_⟩
  · unfold translation at h
    rw [Prod.mk.injEq] at h
    exact ⟨cancel nx hx a i k hi hk h.1, cancel ny hy b j l hj hl h.2⟩
  · obtain ⟨i, hi, h1⟩ := onto nx hx a k hk
    obtain ⟨j, hj, h2⟩ := onto ny hy b l hl
    exact ⟨i, hi, j, hj, by unfold translation; rw [h1, h2]⟩

lemma renumbers_mirrorX : Renumbers (mirrorX nx) nx ny nx ny := by
  refine ⟨fun i hi j hj => ⟨?_, hj⟩, fun i hi j hj k hk l hl h => ?_, fun k hk l hl => ⟨nx - 1 - k, by omega, l, hl, ?_⟩⟩
  · show nx - 1 - i < nx; omega
  · unfold mirrorX at h
    rw [Prod.mk.injEq] at h
    dsimp only at h
    omega
  · unfold mirrorX
    dsimp only
    rw [Prod.mk.injEq]; omega

lemma renumbers_mirrorY : Renumbers (mirrorY ny) nx ny nx ny := by
  refine ⟨fun i hi j hj => ⟨hi, ?_⟩, fun i hi j hj k hk l hl h => ?_, fun k hk l hl => ⟨k, hk, ny - 1 - l, by omega, ?_⟩⟩
  · show ny - 1 - j < ny; omega
  · unfold mirrorY at h
    rw [Prod.mk.injEq] at h
    dsimp only at h
    omega
  · unfold mirrorY
    dsimp only
    rw [Prod.mk.injEq]; omega

lemma renumbers_exchange : Renumbers exchange nx ny ny nx := by
  refine ⟨fun i hi j hj => ⟨hj, hi⟩, fun i hi j hj k hk l hl h => ?_, fun k hk l hl => ⟨l, hl, k, hk, rfl⟩⟩
  unfold exchange at h
  rw [Prod.mk.injEq] at h
  exact ⟨h.2, h.1⟩

/-! ## The common part -/

/-- Two calls on topographies whose substrates are of the same kind, when moves of the tori carry them into each other. -/
lemma same_results (hT : ValidTopo T nx ny sx sy) (hT' : ValidTopo T' nx' ny' sx' sy') (ren : Renumbers σ nx ny nx' ny')
    (hS : (sx' = sx ∧ sy' = sy) ∨ (sx' = sy ∧ sy' = sx)) (hn : (nx' = nx ∧ ny' = ny) ∨ (nx' = ny ∧ ny' = nx))
    (hM : MovedTopo σ 0 nx ny T T') (A : PipeArgs)
    (per : substrateName T A.substrate = "periodic" → ∀ s s', construct ⟨[nx, ny], 1, [sx, sy], none, none, 0, none⟩ = .ok s →
      construct ⟨[nx', ny'], 1, [sx', sy'], none, none, 0, none⟩ = .ok s' → makeSubstrate T A.substrate = .ok ⟨s, false, false⟩ →
      makeSubstrate T' A.substrate = .ok ⟨s', false, false⟩ →
      ∃ e : Fin nx' × Fin ny' ≃ Fin nx × Fin ny, Moves σ nx ny nx' ny' ⟨s, false, false⟩ ⟨s', false, false⟩ e)
    (free : substrateName T A.substrate = "nonperiodic" → ∀ s s', constructFree ⟨[nx, ny], 1, [sx, sy], none⟩ = .ok s →
      constructFree ⟨[nx', ny'], 1, [sx', sy'], none⟩ = .ok s' → makeSubstrate T A.substrate = .ok ⟨s, true, false⟩ →
      makeSubstrate T' A.substrate = .ok ⟨s', true, false⟩ →
      ∃ e : Fin (2 * nx') × Fin (2 * ny') ≃ Fin (2 * nx) × Fin (2 * ny), Moves σ nx ny nx' ny' ⟨s, true, false⟩ ⟨s', true, false⟩ e)
    (rms rms' : NdArray ℝ → ℝ) (bisect : Bisect) :
    SameResults σ nx ny nx' ny' (contactMechanicsCCG T rms bisect A) (contactMechanicsCCG T' rms' bisect A) := by
  have hname : substrateName T' A.substrate = substrateName T A.substrate := by unfold substrateName; rw [hM.periodic]
  have h2 : (1 < nx' ∧ 1 < ny') ↔ (1 < nx ∧ 1 < ny) := by rcases hn with ⟨rfl, rfl⟩ | ⟨rfl, rfl⟩ <;> omega
  have hsum : (nx' : ℝ) + ny' = nx + ny := by rcases hn with ⟨rfl, rfl⟩ | ⟨rfl, rfl⟩ <;> ring
  have harea : sx' * sy' = sx * sy := by rcases hS with ⟨rfl, rfl⟩ | ⟨rfl, rfl⟩ <;> ring
  have hsub : (∃ e, makeSubstrate T A.substrate = .error e ∧ makeSubstrate T' A.substrate = .error e) ∨
      ∃ sub sub', makeSubstrate T A.substrate = .ok sub ∧ makeSubstrate T' A.substrate = .ok sub' ∧
        SolversAgree σ 0 nx ny nx' ny' (defaultSolver T rms bisect A) (defaultSolver T' rms' bisect A) := by
    have c1 := make_cases hT A.substrate
    have c2 := make_cases hT' A.substrate
    rw [hname, h2] at c2
    rcases c1 with ⟨k1, k2, k3⟩ | ⟨k1, k2, s, k3, k4⟩ | ⟨k1, s, k3, k4⟩ | ⟨k1, k2, k3⟩
    · rcases c2 with ⟨l1, l2, l3⟩ | ⟨l1, l2, -⟩ | ⟨l1, -⟩ | ⟨l1, -⟩
      · exact .inl ⟨_, k3, l3⟩
      · exact absurd l2 k2
      · rw [k1] at l1; exact absurd l1 (by decide)
      · exact absurd k1 l1
    · rcases c2 with ⟨l1, l2, l3⟩ | ⟨l1, l2, s', l3, l4⟩ | ⟨l1, -⟩ | ⟨l1, -⟩
      · exact absurd k2 l2
      · obtain ⟨e, M⟩ := per k1 s s' k3 l3 k4 l4
        refine .inr ⟨_, _, k4, l4, ?_⟩
        unfold defaultSolver
        rw [k4, l4]
        exact M.agree ren rms rms' bisect
      · rw [k1] at l1; exact absurd l1 (by decide)
      · exact absurd k1 l1
    · rcases c2 with ⟨l1, -⟩ | ⟨l1, -⟩ | ⟨l1, s', l3, l4⟩ | ⟨-, l1, -⟩
      · rw [k1] at l1; exact absurd l1 (by decide)
      · rw [k1] at l1; exact absurd l1 (by decide)
      · obtain ⟨e, M⟩ := free k1 s s' k3 l3 k4 l4
        refine .inr ⟨_, _, k4, l4, ?_⟩
        unfold defaultSolver
        rw [k4, l4]
        exact M.agree ren rms rms' bisect
      · exact absurd k1 l1
    · rcases c2 with ⟨l1, -⟩ | ⟨l1, -⟩ | ⟨l1, -⟩ | ⟨-, -, l3⟩
      · exact absurd l1 k1
      · exact absurd l1 k1
      · exact absurd l1 k2
      · exact .inl ⟨_, k3, l3⟩
  have := run_carried hT hT' ren harea hsum hM.rms hM.heights (A := A) (.inl rfl) hsub (default_fits hT rms bisect A) (default_fits hT' rms' bisect A)
  rw [loweredArgs_zero] at this
  refine ⟨?_, this.2⟩
  rw [contactMechanicsCCG, this.1]
  show _ = (contactMechanics _ _ _).1
  cases (contactMechanics T (defaultSolver T rms bisect A) A).1 with
  | error e => rfl
  | ok R => simp only [Except.map, lowered_zero_result]

/-! ## C152 -/

/-- **C152** (translation) On a periodic substrate, a surface shifted by any number of rows and columns gives the same
calculation: the same exception or the same five arrays (mean pressures, contact areas, displacements, gaps, convergence
flags), whatever the steps asked for, elastic or plastic; and callbacks that receive the fields shifted likewise. -/
theorem C152_translation (hT : ValidTopo T nx ny sx sy) (hT' : ValidTopo T' nx ny sx sy) (a b : ℕ)
    (hM : MovedTopo (translation nx ny a b) 0 nx ny T T') (A : PipeArgs)
    (hA : A.substrate = some "periodic" ∨ (A.substrate = none ∧ T.isPeriodic = true)) (rms rms' : NdArray ℝ → ℝ) (bisect : Bisect) :
    SameResults (translation nx ny a b) nx ny nx ny (contactMechanicsCCG T rms bisect A) (contactMechanicsCCG T' rms' bisect A) := by
  have hname : substrateName T A.substrate = "periodic" := by
    unfold substrateName
    rcases hA with h | ⟨h1, h2⟩
    · rw [h]; rfl
    · rw [h1, h2]; rfl
  have : NeZero nx := ⟨hT.nx_pos.ne'⟩
  have : NeZero ny := ⟨hT.ny_pos.ne'⟩
  refine same_results hT hT' (renumbers_translation hT.nx_pos hT.ny_pos a b) (.inl ⟨rfl, rfl⟩) (.inl ⟨rfl, rfl⟩) hM A ?_ ?_ rms rms' bisect
  · intro _ s s' h h' m m'
    refine periodic_moves hT.sx_pos hT.sy_pos hT.sx_pos hT.sy_pos (.inl ⟨rfl, rfl⟩) rfl hT hT' m m' h h' (AddEquiv.refl _)
      ((a : ZMod nx), (b : ZMod ny)) (fun _ _ => rfl) (fun _ _ _ => rfl) fun i hi j hj => ?_
    show (((i : ZMod nx)) + a, ((j : ZMod ny)) + b) = ((((i + a) % nx : ℕ) : ZMod nx), (((j + b) % ny : ℕ) : ZMod ny))
    simp [ZMod.natCast_mod]
  · intro h
    rw [hname] at h
    exact absurd h (by decide)

/-- **C152** (reflection of the first direction) The mirror image of a surface gives the same calculation with mirrored
fields, for periodic and for free substrates. -/
theorem C152_mirrorX (hT : ValidTopo T nx ny sx sy) (hT' : ValidTopo T' nx ny sx sy)
    (hM : MovedTopo (mirrorX nx) 0 nx ny T T') (A : PipeArgs) (rms rms' : NdArray ℝ → ℝ) (bisect : Bisect) :
    SameResults (mirrorX nx) nx ny nx ny (contactMechanicsCCG T rms bisect A) (contactMechanicsCCG T' rms' bisect A) := by
  have : NeZero nx := ⟨hT.nx_pos.ne'⟩
  have : NeZero ny := ⟨hT.ny_pos.ne'⟩
  have hx := hT.nx_pos
  have hr : (0 : ℝ) < nx := by exact_mod_cast hx
  have hr' : (0 : ℝ) < ny := by exact_mod_cast hT.ny_pos
  have h1 := hT.sx_pos
  have h2 := hT.sy_pos
  refine same_results hT hT' renumbers_mirrorX (.inl ⟨rfl, rfl⟩) (.inl ⟨rfl, rfl⟩) hM A ?_ ?_ rms rms' bisect
  · intro _ s s' h h' m m'
    refine periodic_moves h1 h2 h1 h2 (.inl ⟨rfl, rfl⟩) rfl hT hT' m m' h h' (negFst nx ny)
      (((nx - 1 : ℕ) : ZMod nx), 0) negFst_char (fun m g k => fullStiff_negFst m sx sy g k) fun i hi j hj => ?_
    show (-(i : ZMod nx) + ((nx - 1 : ℕ) : ZMod nx), (j : ZMod ny) + 0) = (((nx - 1 - i : ℕ) : ZMod nx), (j : ZMod ny))
    rw [Nat.cast_sub (by omega : i ≤ nx - 1), add_zero, neg_add_eq_sub]
  · intro _ s s' h h' m m'
    refine free_moves h1 h2 h1 h2 rfl rfl hT hT' m m' h h' (negFst (2 * nx) (2 * ny))
      (((nx - 1 : ℕ) : ZMod (2 * nx)), 0) negFst_char (fun p => freeKernel_negFst (div_pos h1 hr) (div_pos h2 hr') p) fun i hi j hj => ?_
    show (-(i : ZMod (2 * nx)) + ((nx - 1 : ℕ) : ZMod (2 * nx)), (j : ZMod (2 * ny)) + 0) = (((nx - 1 - i : ℕ) : ZMod (2 * nx)), (j : ZMod (2 * ny)))
    rw [Nat.cast_sub (by omega : i ≤ nx - 1), add_zero, neg_add_eq_sub]

/-- **C152** (reflection of the second direction) -/
theorem C152_mirrorY (hT : ValidTopo T nx ny sx sy) (hT' : ValidTopo T' nx ny sx sy)
    (hM : MovedTopo (mirrorY ny) 0 nx ny T T') (A : PipeArgs) (rms rms' : NdArray ℝ → ℝ) (bisect : Bisect) :
    SameResults (mirrorY ny) nx ny nx ny (contactMechanicsCCG T rms bisect A) (contactMechanicsCCG T' rms' bisect A) := by
  have : NeZero nx := ⟨hT.nx_pos.ne'⟩
  have : NeZero ny := ⟨hT.ny_pos.ne'⟩
  have hr : (0 : ℝ) < nx := by exact_mod_cast hT.nx_pos
  have hr' : (0 : ℝ) < ny := by exact_mod_cast hT.ny_pos
  have h1 := hT.sx_pos
  have h2 := hT.sy_pos
  refine same_results hT hT' renumbers_mirrorY (.inl ⟨rfl, rfl⟩) (.inl ⟨rfl, rfl⟩) hM A ?_ ?_ rms rms' bisect
  · intro _ s s' h h' m m'
    refine periodic_moves h1 h2 h1 h2 (.inl ⟨rfl, rfl⟩) rfl hT hT' m m' h h' (negSnd nx ny)
      (0, ((ny - 1 : ℕ) : ZMod ny)) negSnd_char (fun m g k => fullStiff_negSnd m sx sy g k) fun i hi j hj => ?_
    show ((i : ZMod nx) + 0, -(j : ZMod ny) + ((ny - 1 : ℕ) : ZMod ny)) = ((i : ZMod nx), ((ny - 1 - j : ℕ) : ZMod ny))
    rw [Nat.cast_sub (by omega : j ≤ ny - 1), add_zero, neg_add_eq_sub]
  · intro _ s s' h h' m m'
    refine free_moves h1 h2 h1 h2 rfl rfl hT hT' m m' h h' (negSnd (2 * nx) (2 * ny))
      (0, ((ny - 1 : ℕ) : ZMod (2 * ny))) negSnd_char (fun p => freeKernel_negSnd (div_pos h1 hr) (div_pos h2 hr') p) fun i hi j hj => ?_
    show ((i : ZMod (2 * nx)) + 0, -(j : ZMod (2 * ny)) + ((ny - 1 : ℕ) : ZMod (2 * ny))) = ((i : ZMod (2 * nx)), ((ny - 1 - j : ℕ) : ZMod (2 * ny)))
    rw [Nat.cast_sub (by omega : j ≤ ny - 1), add_zero, neg_add_eq_sub]

/-- **C152** (exchange of the two directions) The transposed surface, with the lengths exchanged too, gives the same
calculation with transposed fields, for periodic and for free substrates. -/
theorem C152_exchange (hT : ValidTopo T nx ny sx sy) (hT' : ValidTopo T' ny nx sy sx)
    (hM : MovedTopo exchange 0 nx ny T T') (A : PipeArgs) (rms rms' : NdArray ℝ → ℝ) (bisect : Bisect) :
    SameResults exchange nx ny ny nx (contactMechanicsCCG T rms bisect A) (contactMechanicsCCG T' rms' bisect A) := by
  have : NeZero nx := ⟨hT.nx_pos.ne'⟩
  have : NeZero ny := ⟨hT.ny_pos.ne'⟩
  have h1 := hT.sx_pos
  have h2 := hT.sy_pos
  refine same_results hT hT' renumbers_exchange (.inr ⟨rfl, rfl⟩) (.inr ⟨rfl, rfl⟩) hM A ?_ ?_ rms rms' bisect
  · intro _ s s' h h' m m'
    refine periodic_moves h1 h2 h2 h1 (.inr ⟨rfl, rfl⟩) (mul_comm _ _) hT hT' m m' h h' AddEquiv.prodComm
      0 swap_char (fun m g k => fullStiff_swap m sx sy g k) fun i hi j hj => ?_
    rw [add_zero]; rfl
  · intro _ s s' h h' m m'
    refine free_moves h1 h2 h2 h1 (mul_comm _ _) (mul_comm _ _) hT hT' m m' h h' AddEquiv.prodComm
      0 swap_char (fun p => freeKernel_swap 1 (sx / nx) (sy / ny) _ _) fun i hi j hj => ?_
    rw [add_zero]; rfl

/-! ## C153 -/

lemma count_grid {d0 d1 : ℕ} (hx : nx ≤ d0) (hy : ny ≤ d1) :
    (CCG.count fun p : Fin d0 × Fin d1 => decide (p.1.val < nx) && decide (p.2.val < ny)) = nx * ny := by
  have h := sum_grid hx hy (fun p : Fin d0 × Fin d1 => if (decide (p.1.val < nx) && decide (p.2.val < ny)) = true then (1 : ℝ) else 0) (fun p hp => by
    rw [if_neg]; simpa using hp)
  have e : total nx ny (fieldArray d0 d1 fun p : Fin d0 × Fin d1 => if (decide (p.1.val < nx) && decide (p.2.val < ny)) = true then (1 : ℝ) else 0)
      = nx * ny := by
    unfold total
    have : ∀ i ∈ range nx, ∀ j ∈ range ny, (fieldArray d0 d1 fun p : Fin d0 × Fin d1 =>
        if (decide (p.1.val < nx) && decide (p.2.val < ny)) = true then (1 : ℝ) else 0).get [i, j] = 1 := by
      intro i hi j hj
      rw [mem_range] at hi hj
      rw [fieldArray_get _ (lt_of_lt_of_le hi hx) (lt_of_lt_of_le hj hy)]
      simp [hi, hj]
    rw [sum_congr rfl fun i hi => sum_congr rfl fun j hj => this i hi j hj]
    simp
  rw [e] at h
  unfold CCG.count
  rw [card_filter]
  have : ((∑ p : Fin d0 × Fin d1, if (decide (p.1.val < nx) && decide (p.2.val < ny)) = true then 1 else 0 : ℕ) : ℝ) = (nx * ny : ℕ) := by
    push_cast
    exact h
  exact_mod_cast this

/-- The solver on a raised surface. -/
lemma raised_agree {sub : Substrate} {d0 d1 : ℕ} (g : Grid sub nx ny d0 d1) (hx : 0 < nx) (hy : 0 < ny) (c : ℝ) (rms rms' : NdArray ℝ → ℝ)
    (bisect : Bisect) (hc : c ≠ 0) :
    SolversAgree id c nx ny nx ny (ccgSolver sub rms bisect kw) (ccgSolver sub rms' bisect kw) := by
  intro q q' hq
  set P := ccgProblem sub rms d0 d1 nx ny q.heights with hP
  set P' := ccgProblem sub rms' d0 d1 nx ny q'.heights with hP'
  obtain ⟨pt, hpt⟩ := Option.ne_none_iff_exists'.1 hq.tolerance
  obtain ⟨h1, hF⟩ := hq.given.resolve_left hc
  obtain ⟨off, hoff⟩ := Option.ne_none_iff_exists'.1 h1
  have hmain := CCG.C110_rigid_shift (P := P) (o := ccgOptions bisect kw _ q) (c := c) (off := off) hF hoff (by
    show ((nx * ny : ℕ) : ℝ) = ((CCG.count fun p : Fin d0 × Fin d1 => decide (p.1.val < nx) && decide (p.2.val < ny) : ℕ) : ℝ)
    rw [count_grid g.lex g.ley]) (by
    show 0 < CCG.count fun p : Fin d0 × Fin d1 => decide (p.1.val < nx) && decide (p.2.val < ny)
    rw [count_grid g.lex g.ley]; positivity)
  have hopt : ccgOptions bisect kw (Fin d0 × Fin d1) q' = CCG.withOffset (ccgOptions bisect kw _ q) (off - c) := by
    unfold ccgOptions CCG.withOffset
    rw [hq.hardness, hq.externalForce, hq.offset, hq.pentol, hq.maxiter, hoff]
    rfl
  have hpr : CCG.solveCb P' (ccgOptions bisect kw _ q') = CCG.solveCb (CCG.raised P c) (ccgOptions bisect kw _ q') := by
    rw [← CCG.C154_given_tolerance (P := P') (o := ccgOptions bisect kw (Fin d0 × Fin d1) q') (pt := pt) (by
      show q'.pentol = _; rw [hq.pentol, hpt]) P.rmsHeight P.meanGrid]
    rw [← CCG.C154_undefined_points_ignored (P := { P' with rmsHeight := P.rmsHeight, meanGrid := P.meanGrid }) (h := fun p => P.h p + c)]
    · rfl
    · intro p hp
      have hp' : p.1.val < nx ∧ p.2.val < ny := by
        have : (decide (p.1.val < nx) && decide (p.2.val < ny)) = true := hp
        simpa using this
      show q.heights.get [p.1.val, p.2.val] + c = q'.heights.get [p.1.val, p.2.val]
      exact (hq.heights _ hp'.1 _ hp'.2).symm
  have hsol : CCG.solve P' (ccgOptions bisect kw _ q') = (CCG.solve P (ccgOptions bisect kw _ q)).map fun r => { r with offset := r.offset - c } := by
    unfold CCG.solve
    rw [hpr, hopt, hmain]
    cases CCG.solveCb P (ccgOptions bisect kw _ q) <;> rfl
  unfold ccgSolver
  rw [g.dom, g.topo]
  dsimp only
  rw [← hP, ← hP', hsol]
  cases CCG.solve P (ccgOptions bisect kw _ q) with
  | error x => exact .inl ⟨x, rfl, rfl⟩
  | ok r => exact .inr ⟨_, _, rfl, rfl, fun _ _ _ _ => rfl, fun _ _ _ _ => rfl, fun _ _ _ _ => rfl, rfl, rfl⟩

lemma renumbers_id : Renumbers id nx ny nx ny :=
  ⟨fun _ hi _ hj => ⟨hi, hj⟩, fun _ _ _ _ _ _ _ _ h => by simpa using h, fun k hk l hl => ⟨k, hk, l, hl, rfl⟩⟩

/-- **C153** Raising the surface by `c` and lowering all prescribed offsets by `c` gives the same calculation, elastic or
plastic, on every substrate: the same exception or the same mean pressures, contact areas, gaps and convergence flags, offsets
lower by `c`, and callbacks with the same fields. -/
theorem C153_offsets (hT : ValidTopo T nx ny sx sy) (hT' : ValidTopo T' nx ny sx sy) {c : ℝ} (hM : MovedTopo id c nx ny T T')
    (A : PipeArgs) {os : List ℝ} (ho : A.offsets = some os) (rms rms' : NdArray ℝ → ℝ) (bisect : Bisect) :
    (contactMechanicsCCG T' rms' bisect { A with offsets := some (os.map (· - c)) }).1 = (contactMechanicsCCG T rms bisect A).1.map (lowered c) ∧
      List.Forall₂ (ReportCarried id c nx ny nx ny) (contactMechanicsCCG T rms bisect A).2
        (contactMechanicsCCG T' rms' bisect { A with offsets := some (os.map (· - c)) }).2 := by
  have hlow : ({ A with offsets := some (os.map (· - c)) } : PipeArgs) = loweredArgs c A := by unfold loweredArgs; rw [ho]; rfl
  have hname : makeSubstrate T' A.substrate = makeSubstrate T A.substrate := by
    unfold makeSubstrate
    rw [hM.periodic, hT.heights, hT'.heights, hT.sizes, hT'.sizes]
  have hdef : ∀ A', A'.substrate = A.substrate → A'.optimizerKwargs = A.optimizerKwargs → defaultSolver T' rms' bisect A' = match makeSubstrate T A.substrate with
      | .error e => fun _ => .error e
      | .ok sub => ccgSolver sub rms' bisect A.optimizerKwargs := by
    intro A' h h'
    unfold defaultSolver
    rw [h, h', hname]
    cases makeSubstrate T A.substrate <;> rfl
  rw [hlow]
  unfold contactMechanicsCCG
  refine run_carried hT hT' renumbers_id rfl rfl hM.rms hM.heights (.inr (by simp [ho])) ?_ (default_fits hT rms bisect A)
    (default_fits hT' rms' bisect _)
  rw [hname]
  cases hm : makeSubstrate T A.substrate with
  | error e => exact .inl ⟨e, rfl, rfl⟩
  | ok sub =>
    refine .inr ⟨sub, sub, rfl, rfl, ?_⟩
    rw [hdef (loweredArgs c A) rfl rfl]
    unfold defaultSolver
    rw [hm]
    dsimp only
    obtain ⟨d0, d1, g⟩ := grid_of_make hT hm
    by_cases hc : c = 0
    · subst hc
      refine Moves.agree (e := Equiv.refl _) ⟨g, g, ?_, fun _ => rfl, fun _ => rfl⟩ renumbers_id rms rms' bisect
      intro i _ j _ p hp
      exact hp
    · exact raised_agree g hT.nx_pos hT.ny_pos c rms rms' bisect hc

/-- An automatic step on a flat surface that does not touch. -/
lemma flat_step {T : Topo} (hT : ValidTopo T nx ny sx sy) {h0 : ℝ} (hflat : ∀ i < nx, ∀ j < ny, T.heights.get [i, j] = h0) {sub : Substrate} {d0 d1 : ℕ}
    (hkw : 0 < kw.forcetol) (g : Grid sub nx ny d0 d1) (rms : NdArray ℝ → ℝ) (bisect : Bisect) {Y : AnySys} (hY : Ready nx ny sx sy T.heights none Y) (o : Option History)
    {x pt : ℝ} (hp : 0 < pt) {mi : ℤ} (hm : 1 ≤ mi) (hx : nextOffset T.heights o = x) (hsep : h0 + x ≤ 0) :
    ∃ R Z, runStep [sx, sy] (ccgSolver sub rms bisect kw) (some pt) mi Y o .auto =
      (.ok (R, (o.getD .empty).push ⟨x, -(mean nx ny T.heights + x), 0, 0, true⟩), Z) ∧ Ready nx ny sx sy T.heights none Z := by
  obtain ⟨r1, r2⟩ := reset_ready hT.heights hY
  obtain ⟨r, k1, k2, k3, k4, k5⟩ := separated_call rms bisect hkw g (h := T.heights) (H := none) (by simp) (o := x) hp hm
    (fun i hi j hj => by rw [hflat i hi j hj]; exact hsep)
  obtain ⟨-, c2⟩ := calc_ready hT.heights hT.nx_pos hT.ny_pos hT.sx_pos hT.sy_pos r1 (ccgSolver sub rms bisect kw) (some x) none (some pt) mi o
  obtain ⟨R, Z, h1, h2, -⟩ := c2 r (by rw [r2]; exact k1) (ccg_fits g _ _ k1)
  refine ⟨R, Z, ?_, h2⟩
  unfold runStep nextContactStep
  dsimp only
  rw [r2] at h1 ⊢
  rw [hx, h1, record_separated k2 k3 k4 k5]

/-- **C153** (automatic steps; refuted) The offsets of automatic steps do not follow the surface: for a flat surface at height
`h0 ≥ 0` the third offset is `-3 h0`, not `-h0`. -/
theorem C153_automatic_flat_partial (hT : ValidTopo T nx ny sx sy) (hx : 1 < nx) (hy : 1 < ny) (rms : NdArray ℝ → ℝ) (bisect : Bisect) {h0 : ℝ}
    (h0' : 0 ≤ h0) (hflat : ∀ i < nx, ∀ j < ny, T.heights.get [i, j] = h0) :
    ∃ R, (contactMechanicsCCG T rms bisect { nsteps := some 3 }).1 = .ok R ∧ R.meanDisplacement = [-h0, -h0, -3 * h0] := by
  have hnx : (0 : ℝ) < nx := by exact_mod_cast hT.nx_pos
  have hny : (0 : ℝ) < ny := by exact_mod_cast hT.ny_pos
  have hmean : npMean T.heights = h0 := by
    rw [npMean2 hT.heights]
    unfold mean
    rw [sum_congr rfl fun i hi => sum_congr rfl fun j hj => hflat i (mem_range.1 hi) j (mem_range.1 hj)]
    simp only [sum_const, card_range, nsmul_eq_mul]
    field_simp
  have htop : npMax T.heights = h0 := max_unique (npMax_top hT.heights hT.nx_pos hT.ny_pos)
    ⟨⟨0, hT.nx_pos, 0, hT.ny_pos, hflat 0 hT.nx_pos 0 hT.ny_pos⟩, fun i hi j hj => (hflat i hi j hj).le⟩
  have hbot : npMin T.heights = h0 := min_unique (npMin_bottom hT.heights hT.nx_pos hT.ny_pos)
    ⟨⟨0, hT.nx_pos, 0, hT.ny_pos, hflat 0 hT.nx_pos 0 hT.ny_pos⟩, fun i hi j hj => (hflat i hi j hj).ge⟩
  obtain ⟨Y, hY⟩ := system_ok hT hx hy { nsteps := some 3 } (.inl rfl)
  cases hmk : makeSubstrate T none with
  | error e =>
    have : makePipeSystem T { nsteps := some 3 } = .error e := by unfold makePipeSystem; rw [hmk]; rfl
    rw [this] at hY; cases hY
  | ok sub =>
    obtain ⟨d0, d1, g⟩ := grid_of_make hT hmk
    obtain ⟨r1, -⟩ := system_ready hT hY
    have hdef : defaultSolver T rms bisect { nsteps := some 3 } = ccgSolver sub rms bisect {} := by
      unfold defaultSolver
      show (match makeSubstrate T none with | .error e => _ | .ok sub => _) = _
      rw [hmk]
    have hp := pipePentol_pos T
    have m1 : nextOffset T.heights none = -h0 := by unfold nextOffset; dsimp only; rw [hmean]
    obtain ⟨R1, Z1, a1, a2⟩ := flat_step hT hflat (kw := {}) (by norm_num) g rms bisect r1 none hp (mi := 100) (by norm_num) m1 (by linarith)
    generalize hH1 : (Option.getD none History.empty).push ⟨-h0, -(mean nx ny T.heights + -h0), 0, 0, true⟩ = H1 at a1
    have m2 : nextOffset T.heights (some H1) = -h0 := by
      unfold nextOffset
      dsimp only
      rw [htop, hmean, ← hH1]
      simp [History.push, History.empty]
    obtain ⟨R2, Z2, b1, b2⟩ := flat_step hT hflat (kw := {}) (by norm_num) g rms bisect a2 (some H1) hp (mi := 100) (by norm_num) m2 (by linarith)
    generalize hH2 : (Option.getD (some H1) History.empty).push ⟨-h0, -(mean nx ny T.heights + -h0), 0, 0, true⟩ = H2 at b1
    have d2 : H2.disp = [-h0, -h0] := by rw [← hH2, ← hH1]; simp [History.push, History.empty]
    have ar2 : H2.area = [0, 0] := by rw [← hH2, ← hH1]; simp [History.push, History.empty]
    have m3 : nextOffset T.heights (some H2) = -3 * h0 := by
      have hN : (1 : ℝ) < nx * ny := by
        have : (1 : ℝ) < nx := by exact_mod_cast hx
        have : (1 : ℝ) < ny := by exact_mod_cast hy
        nlinarith
      have hlog : Real.logb 10 ((ny : ℝ)⁻¹ * (nx : ℝ)⁻¹) < 0 := by
        apply Real.logb_neg (by norm_num)
        · positivity
        · rw [← mul_inv, mul_comm]; exact inv_lt_one_of_one_lt₀ hN
      unfold nextOffset
      dsimp only
      rw [hbot, d2, ar2, hT.heights]
      have hs : sortedBy Prod.snd (List.zip [-h0, -h0] [(0 : ℝ), 0]) = [(-h0, 0), (-h0, 0)] := by
        simp [sortedBy, List.insertionSort, List.orderedInsert]
      rw [hs]
      have hi : argmax (dArea [nx, ny].prod ([(-h0, (0 : ℝ)), (-h0, 0)].map Prod.snd)) = 1 := by
        simp [dArea, argmax, argmaxFrom, hlog]
      rw [hi]
      simp
      ring
    obtain ⟨R3, Z3, c1, c2⟩ := flat_step hT hflat (kw := {}) (by norm_num) g rms bisect b2 (some H2) hp (mi := 100) (by norm_num) m3 (by linarith)
    have hrun : (runSteps [sx, sy] (ccgSolver sub rms bisect {}) (some (pipePentol T)) 100 false Y none [.auto, .auto, .auto]).1 =
        .ok (some (H2.push ⟨-3 * h0, -(mean nx ny T.heights + -3 * h0), 0, 0, true⟩)) := by
      simp only [runSteps, a1, b1, c1, Option.getD_some]
    generalize hH3 : H2.push ⟨-3 * h0, -(mean nx ny T.heights + -3 * h0), 0, 0, true⟩ = H3 at hrun
    refine ⟨⟨H3.pressure, H3.area, H3.disp, H3.gap, H3.converged⟩, ?_, ?_⟩
    rotate_left
    · rw [← hH3]
      simp [History.push, d2]
    · unfold contactMechanicsCCG contactMechanics
      rw [hdef, hT.sizes]
      have hv : validate { nsteps := some 3 } = .ok () := by simp [validate]
      rw [hv]
      simp only [bind, Except.bind, hY]
      have hq : requests T { nsteps := some 3 } = [.auto, .auto, .auto] := by simp [requests, List.replicate]
      rw [hq]
      revert hrun
      generalize runSteps [sx, sy] (ccgSolver sub rms bisect {}) (some (pipePentol T)) 100 false Y none [.auto, .auto, .auto] = z
      obtain ⟨z1, z2⟩ := z
      rintro rfl
      rfl

/-- A flat surface on a `3 × 4` grid. -/
def flatTopo (h0 : ℝ) : Topo := ⟨⟨[3, 4], fun _ => h0⟩, [1, 2], true, 0⟩

lemma flatTopo_valid (h0 : ℝ) : ValidTopo (flatTopo h0) 3 4 1 2 := by constructor <;> first | rfl | norm_num

/-- **C153** (automatic steps; refuted) Raising a surface changes more than the reference of the offsets: the table of a flat
surface at height one is not the table of the same surface at height zero with all offsets lower by one. -/
theorem C153_automatic_partial (rms : NdArray ℝ → ℝ) (bisect : Bisect) :
    MovedTopo id 1 3 4 (flatTopo 0) (flatTopo 1) ∧
    ∃ R R', (contactMechanicsCCG (flatTopo 0) rms bisect { nsteps := some 3 }).1 = .ok R ∧
      (contactMechanicsCCG (flatTopo 1) rms bisect { nsteps := some 3 }).1 = .ok R' ∧ R' ≠ lowered 1 R := by
  refine ⟨⟨fun i _ j _ => by simp [flatTopo], rfl, rfl⟩, ?_⟩
  obtain ⟨R, h1, h2⟩ := C153_automatic_flat_partial (flatTopo_valid 0) (by norm_num) (by norm_num) rms bisect (le_refl 0) (fun _ _ _ _ => rfl)
  obtain ⟨R', h3, h4⟩ := C153_automatic_flat_partial (flatTopo_valid 1) (by norm_num) (by norm_num) rms bisect zero_le_one (fun _ _ _ _ => rfl)
  refine ⟨R, R', h1, h3, fun h => ?_⟩
  have := congrArg Result.meanDisplacement h
  rw [h4] at this
  unfold lowered at this
  dsimp only at this
  rw [h2] at this
  norm_num at this

/-! ## The hypotheses can be met -/

/-- A rough surface on a `3 × 4` grid of lengths `1 × 2`. -/
def roughTopo (periodic : Bool) : Topo :=
  ⟨⟨[3, 4], fun x => match x with | [i, j] => (i * i : ℝ) + 5 * j | _ => 0⟩, [1, 2], periodic, 6⟩

/-- The surface with its points renumbered by the inverse `τ` of a move, on a `nx × ny` grid, raised by `c`. -/
def movedTopo (τ : ℕ × ℕ → ℕ × ℕ) (c : ℝ) (shape : List ℕ) (sizes : List ℝ) (periodic : Bool) : Topo :=
  ⟨⟨shape, fun x => match x with | [k, l] => ((τ (k, l)).1 * (τ (k, l)).1 : ℝ) + 5 * (τ (k, l)).2 + c | _ => 0⟩, sizes, periodic, 6⟩

lemma moved_of_inverse {σ τ : ℕ × ℕ → ℕ × ℕ} (c : ℝ) (shape : List ℕ) (sizes : List ℝ) (b : Bool) (h : ∀ i < 3, ∀ j < 4, τ (σ (i, j)) = (i, j)) :
    MovedTopo σ c 3 4 (roughTopo b) (movedTopo τ c shape sizes b) := by
  refine ⟨fun i hi j hj => ?_, rfl, rfl⟩
  show ((τ ((σ (i, j)).1, (σ (i, j)).2)).1 * (τ ((σ (i, j)).1, (σ (i, j)).2)).1 : ℝ) + 5 * (τ ((σ (i, j)).1, (σ (i, j)).2)).2 + c = _
  rw [show ((σ (i, j)).1, (σ (i, j)).2) = σ (i, j) from rfl, h i hi j hj]
  rfl

/-- A rough surface, its translate, mirror images, transpose and raised copy meet the hypotheses. -/
example (b : Bool) : ValidTopo (roughTopo b) 3 4 1 2 ∧
    (ValidTopo (movedTopo (translation 3 4 1 1) 0 [3, 4] [1, 2] b) 3 4 1 2 ∧
      MovedTopo (translation 3 4 2 3) 0 3 4 (roughTopo b) (movedTopo (translation 3 4 1 1) 0 [3, 4] [1, 2] b)) ∧
    (ValidTopo (movedTopo (mirrorX 3) 0 [3, 4] [1, 2] b) 3 4 1 2 ∧
      MovedTopo (mirrorX 3) 0 3 4 (roughTopo b) (movedTopo (mirrorX 3) 0 [3, 4] [1, 2] b)) ∧
    (ValidTopo (movedTopo (mirrorY 4) 0 [3, 4] [1, 2] b) 3 4 1 2 ∧
      MovedTopo (mirrorY 4) 0 3 4 (roughTopo b) (movedTopo (mirrorY 4) 0 [3, 4] [1, 2] b)) ∧
    (ValidTopo (movedTopo exchange 0 [4, 3] [2, 1] b) 4 3 2 1 ∧
      MovedTopo exchange 0 3 4 (roughTopo b) (movedTopo exchange 0 [4, 3] [2, 1] b)) ∧
    (ValidTopo (movedTopo id 7 [3, 4] [1, 2] b) 3 4 1 2 ∧
      MovedTopo id 7 3 4 (roughTopo b) (movedTopo id 7 [3, 4] [1, 2] b)) := by
  refine ⟨?_, ⟨?_, moved_of_inverse _ _ _ _ (by decide)⟩, ⟨?_, moved_of_inverse _ _ _ _ (by decide)⟩, ⟨?_, moved_of_inverse _ _ _ _ (by decide)⟩,
    ⟨?_, moved_of_inverse _ _ _ _ (by decide)⟩, ⟨?_, moved_of_inverse _ _ _ _ (by decide)⟩⟩ <;>
    constructor <;> first | rfl | norm_num

/-- A calculation C152 and C153 compare: it returns. -/
example (rms : NdArray ℝ → ℝ) (bisect : Bisect) : ∃ reps,
    contactMechanicsCCG (roughTopo true) rms bisect { offsets := some [-20, -30], callback := true } =
      (.ok ⟨[0, 0], [0, 0], [-20, -30], [-20, -30].map fun o => -(mean 3 4 (roughTopo true).heights + o), [true, true]⟩, reps) :=
  C148_separated_surfaces (T := roughTopo true) (nx := 3) (ny := 4) (sx := 1) (sy := 2) (by constructor <;> first | rfl | norm_num) (by norm_num) (by norm_num)
    rms bisect { offsets := some [-20, -30], callback := true } (by norm_num) (by simp) (by norm_num) (.inl rfl) (by simp [ExactlyOne]) [-20, -30] rfl (by simp)
    (fun o ho i hi j hj => by
      have h1 : ((i : ℝ)) ≤ 2 := by exact_mod_cast Nat.lt_succ_iff.1 hi
      have h2 : ((j : ℝ)) ≤ 3 := by exact_mod_cast Nat.lt_succ_iff.1 hj
      have h3 : (0 : ℝ) ≤ i := Nat.cast_nonneg i
      simp only [List.mem_cons, List.not_mem_nil, or_false] at ho
      show (i * i : ℝ) + 5 * j + o ≤ 0
      rcases ho with rfl | rfl <;> nlinarith)

end CM.Pipe
