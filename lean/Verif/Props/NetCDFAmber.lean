import Verif.Model.NetCDFAmber
import Verif.Lemmas.Array
/-!
# C219: trajectories in the AMBER convention
-/
namespace CM.NetCDF
open CM.HS CM.FFT

/-- The variable of a trajectory an attribute of a frame stands for. -/
inductive StandsFor : String → String → Prop
  | u : StandsFor "u" "coordinates"
  | f : StandsFor "f" "forces"

lemma mangle_standsFor {a v : String} (h : StandsFor a v) : mangle a = v ∧ a ≠ "" ∧ isPrivate a = false := by
  cases h <;> decide

/-- **C219** (refuted: trajectories can be read) If netCDF4 is installed, opening a trajectory always raises `TypeError`. -/
theorem C219_netcdf4_partial (t : Trajectory) (fr : ℤ) : openAmber .netcdf4 t fr = .error .typeError := rfl

/-- **C219** With SciPy, a trajectory whose atoms form a square is opened with the size of that square, and `frame.u`, `frame.f` are the
coordinates and forces of the atoms of that frame, row by row; other numbers of atoms are refused. -/
theorem C219_read (t : Trajectory) (fr : ℕ) :
    (∀ n, t.atoms = n * n → ∃ C, openAmber .scipy t fr = .ok C ∧ C.n = n ∧ C.traj = t ∧
      ∀ i : ℕ, i < t.frames → amberFrame C i = .ok i ∧
        ∀ a v var, StandsFor a v → t.vars v = some var → var.dims = [t.atoms, 3] →
          ∃ A, amberGet C i a = .ok A ∧ A.shape = [n, n, 3] ∧
            ∀ x y c, x < n → y < n → c < 3 → A.get [x, y, c] = var.data i [x * n + y, c]) ∧
    ((∀ n, t.atoms ≠ n * n) → openAmber .scipy t fr = .error .assertionError) := by
  refine ⟨fun n hn => ⟨⟨t, n, fr⟩, ?_, rfl, rfl, fun i hi => ⟨?_, fun a v var hav hv hd => ?_⟩⟩, fun h => ?_⟩
  · have : t.atoms.sqrt = n := by rw [hn]; exact Nat.sqrt_eq n
    simp only [openAmber, this]
    rw [if_pos hn.symm, if_neg (by omega)]
    rfl
  · simp only [amberFrame]
    rw [if_neg (by omega)]
    rfl
  · obtain ⟨h1, h2, h3⟩ := mangle_standsFor hav
    unfold amberGet
    rw [if_neg h2, h3]
    simp only [h1, hv, Bool.false_eq_true, if_false]
    rw [if_neg (by omega), if_neg (by rw [hd]; simp)]
    unfold reshape
    rw [if_pos (by simp only [NdArray.size, hd, hn, List.prod_cons, List.prod_nil]; ring)]
    refine ⟨_, rfl, rfl, fun x y c hx hy hc => ?_⟩
    simp only [NdArray.flat, hd, unflatIndex, flatIndex, List.prod_cons, List.prod_nil, mul_one, Nat.div_one, add_zero]
    have e1 : x * (n * 3) + (y * 3 + c) = c + 3 * (x * n + y) := by ring
    rw [e1, Nat.add_mul_div_left _ _ (by omega : 0 < 3), Nat.div_eq_of_lt hc, Nat.add_mul_mod_self_left, Nat.mod_eq_of_lt hc, Nat.zero_add]
  · simp only [openAmber]
    rw [if_neg fun e => h _ e.symm]

lemma bcastRev_same : ∀ s : List ℕ, bcastRev s s = some s
  | [] => rfl
  | x :: xs => by simp only [bcastRev, bcastRev_same xs, if_true]

/-- **C219** (refuted: what is read can be written) The array that reading `frame.u` gives cannot be assigned to `frame.u`, unless there
is a single atom: `ValueError`.  What can be assigned is an array of the shape of the variable, and it is then read row by row; other
frames and variables keep what they had. -/
theorem C219_write_partial (C : Amber) (i : ℕ) (hi : i < C.traj.frames) {a v : String} (hav : StandsFor a v) {var : AmberVar}
    (hv : C.traj.vars v = some var) (hd : var.dims = [C.n * C.n, 3]) :
    (1 < C.n → ∀ A, amberGet C i a = .ok A → amberSet C i a A = .error .valueError) ∧
    ∀ W : NdArray ℝ, W.shape = [C.n * C.n, 3] → ∃ C' A, amberSet C i a W = .ok C' ∧ amberGet C' i a = .ok A ∧ A.shape = [C.n, C.n, 3] ∧
      (∀ x y c, x < C.n → y < C.n → c < 3 → A.get [x, y, c] = var.rnd (W.get [x * C.n + y, c])) ∧
      (∀ w, w ≠ v → C'.traj.vars w = C.traj.vars w) ∧ (∀ j b, j ≠ i → amberGet C' j b = amberGet C j b) := by
  obtain ⟨h1, h2, h3⟩ := mangle_standsFor hav
  refine ⟨fun hn A hA => ?_, fun W hW => ?_⟩
  · have hs : A.shape = [C.n, C.n, 3] := by
      unfold amberGet at hA
      rw [if_neg h2, h3] at hA
      simp only [h1, hv, Bool.false_eq_true, if_false] at hA
      rw [if_neg (by omega), if_neg (by rw [hd]; simp)] at hA
      unfold reshape at hA
      split at hA
      · cases hA; rfl
      · cases hA
    unfold amberSet
    rw [if_neg h2, h3]
    simp only [h1, hv, Bool.false_eq_true, if_false]
    rw [if_neg (by omega)]
    have : assignShape var.dims A = .error .valueError := by
      unfold assignShape
      rw [hs, hd]
      rw [if_neg]
      rintro ⟨h, -⟩
      simp at h
      omega
    rw [this]
  · have hass : assignShape var.dims W = .ok fun x => W.get (bcastIndex [C.n * C.n, 3] x) := by
      unfold assignShape
      rw [hW, hd]
      simp [bcastRev_same]
    have hset : amberSet C i a W = .ok { C with traj := { C.traj with vars := fun s => if s = v then some { var with
        data := fun j x => if j = i then var.rnd (W.get (bcastIndex [C.n * C.n, 3] x)) else var.data j x } else C.traj.vars s } } := by
      unfold amberSet
      rw [if_neg h2, h3]
      simp only [h1, hv, Bool.false_eq_true, if_false, hass]
      rw [if_neg (by omega)]
    refine ⟨_, ⟨[C.n, C.n, 3], fun x => NdArray.flat ⟨var.dims, fun x => var.rnd (W.get (bcastIndex [C.n * C.n, 3] x))⟩ (flatIndex [C.n, C.n, 3] x)⟩,
      hset, ?_, rfl, fun x y c hx hy hc => ?_, fun w hw => ?_, fun j b hj => ?_⟩
    · unfold amberGet
      rw [if_neg h2, h3]
      simp only [h1, Bool.false_eq_true, if_false, if_true]
      rw [if_neg (by omega), if_neg (by rw [hd]; simp)]
      unfold reshape
      rw [if_pos (by simp only [NdArray.size, hd, List.prod_cons, List.prod_nil]; ring)]
    · simp only [NdArray.flat, hd, unflatIndex, flatIndex, List.prod_cons, List.prod_nil, mul_one, Nat.div_one, add_zero]
      have e1 : x * (C.n * 3) + (y * 3 + c) = c + 3 * (x * C.n + y) := by ring
      rw [e1, Nat.add_mul_div_left _ _ (by omega : 0 < 3), Nat.div_eq_of_lt hc, Nat.add_mul_mod_self_left, Nat.mod_eq_of_lt hc, Nat.zero_add]
      rw [bcastIndex_self]
      refine valid2.mpr ⟨_, _, rfl, ?_, hc⟩
      calc x * C.n + y < x * C.n + C.n := by omega
        _ = (x + 1) * C.n := by ring
        _ ≤ C.n * C.n := Nat.mul_le_mul_right _ hx
    · show (if w = v then _ else _) = _
      rw [if_neg hw]
    · unfold amberGet
      dsimp only
      by_cases hb : b = ""
      · rw [if_pos hb, if_pos hb]
      rw [if_neg hb, if_neg hb]
      cases hp : isPrivate b with
      | true => rfl
      | false =>
        simp only [Bool.false_eq_true, if_false]
        by_cases hm : mangle b = v
        · rw [if_pos hm, hm, hv]
          simp only [if_neg hj]
        · rw [if_neg hm]

/-- **C219** (refuted: all variables of the file can be read) Variables with one number per frame, like the time, cannot be read, nor those with another number of entries; there is no access from the end; and forces
cannot be added to a trajectory that has none, whatever the shape. -/
theorem C219_other_partial (C : Amber) (i : ℕ) (hi : i < C.traj.frames) :
    (∀ name var, name ≠ "" → isPrivate name = false → C.traj.vars (mangle name) = some var → var.dims = [] →
      amberGet C i name = .error .attributeError) ∧
    (∀ name var, name ≠ "" → isPrivate name = false → C.traj.vars (mangle name) = some var → var.dims ≠ [] →
      var.dims.prod ≠ C.n * C.n * 3 → amberGet C i name = .error .valueError) ∧
    (∀ k : ℤ, k < 0 → amberFrame C k = .error .typeError ∧ ∃ e, openAmber .scipy C.traj k = .error e) ∧
    (C.traj.vars "forces" = none → ∀ W, ∃ e, amberSet C i "f" W = .error e) := by
  refine ⟨fun name var h1 h2 h3 h4 => ?_, fun name var h1 h2 h3 h4 h5 => ?_, fun k hk => ⟨?_, ?_⟩, fun h W => ?_⟩
  · unfold amberGet
    rw [if_neg h1, h2]
    simp only [h3, h4, Bool.false_eq_true, if_false, if_true]
    rw [if_neg (by omega)]
  · unfold amberGet
    rw [if_neg h1, h2]
    simp only [h3, Bool.false_eq_true, if_false]
    rw [if_neg (by omega), if_neg h4]
    unfold reshape
    rw [if_neg]
    simp only [NdArray.size, List.prod_cons, List.prod_nil]
    intro e
    exact h5 (by rw [e]; ring)
  · unfold amberFrame; rw [if_pos hk]
  · unfold openAmber
    dsimp only
    by_cases hq : C.traj.atoms.sqrt * C.traj.atoms.sqrt = C.traj.atoms
    · exact ⟨_, (if_pos hq).trans (if_pos hk)⟩
    · exact ⟨_, if_neg hq⟩
  · have e : mangle "f" = "forces" := by decide
    have e2 : isPrivate "f" = false := by decide
    unfold amberSet
    rw [if_neg (by decide), e2, e, h]
    simp only [Bool.false_eq_true, if_false]
    split <;> exact ⟨_, rfl⟩

/-- The hypotheses can be met: four atoms, two frames. -/
example : ∃ (t : Trajectory) (C : Amber) (var : AmberVar), openAmber .scipy t 0 = .ok C ∧ 1 < C.n ∧ 1 < C.traj.frames ∧
    C.traj.vars "coordinates" = some var ∧ var.dims = [C.n * C.n, 3] ∧ C.traj.vars "forces" = none ∧
    ∃ w, C.traj.vars (mangle "time") = some w ∧ w.dims = [] := by
  let t : Trajectory := ⟨4, 2, fun s => if s = "coordinates" then some ⟨[4, 3], id, fun _ _ => 1⟩ else
    if s = "time" then some ⟨[], id, fun j _ => j⟩ else none⟩
  exact ⟨t, ⟨t, 2, 0⟩, ⟨[4, 3], id, fun _ _ => 1⟩, by
    have e : t.atoms.sqrt = 2 := Nat.sqrt_eq 2
    simp only [openAmber, e]; rfl, by decide, by decide, rfl, rfl, by simp [t],
    ⟨[], id, fun j _ => j⟩, by simp [mangle, t], rfl⟩

end CM.NetCDF
