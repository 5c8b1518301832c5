import Verif.Model.ParallelSystems
import Verif.Props.ParallelSubstrate
import Verif.Props.ParallelCCG
import Verif.Props.Systems3
import Verif.Props.Plastic
/-!
# C181: contact systems on several processes, and the coordinates of the contact points
-/
namespace CM.System
open Finset CM.HS CM.FFT CM.Spec

section Spec
variable {R : Type}

/-- The processes hold the `n0 × n1` array `F` in the blocks `b`. -/
def SplitIn {A : Type} (n0 n1 : ℕ) (b : R → Block) (F : NdArray A) (a : R → NdArray A) : Prop :=
  F.shape = [n0, n1] ∧ (∀ r, (a r).shape = [(b r).n0, (b r).n1]) ∧ BlocksOf b F.get fun r i j => (a r).get [i, j]

/-- An attribute that is `None` on all processes, or an array held in blocks. -/
def SplitOpt {A : Type} (n0 n1 : ℕ) (b : R → Block) (F : Option (NdArray A)) (a : R → Option (NdArray A)) : Prop :=
  match F with
  | none => ∀ r, a r = none
  | some F => ∃ v, (∀ r, a r = some (v r)) ∧ SplitIn n0 n1 b F v

/-- The systems of the processes are, together, the system `S` of a single process: computational grid `d0 × d1`, topography `nx × ny`. -/
structure Agrees (d0 d1 nx ny : ℕ) (S : Sys) (T : R → ProcSys) : Prop where
  sub : ∀ r, (T r).sub = S.sub
  offset : ∀ r, (T r).offset = S.offset
  grid : Parts d0 d1 fun r => (T r).block
  disp : SplitOpt d0 d1 (fun r => (T r).block) S.disp fun r => (T r).disp
  force : SplitOpt nx ny (fun r => (T r).topo nx ny) S.force fun r => (T r).force
  subForce : SplitOpt nx ny (fun r => (T r).topo nx ny) S.subForce fun r => (T r).subForce
  contactZone : SplitOpt nx ny (fun r => (T r).topo nx ny) S.contactZone fun r => (T r).contactZone

end Spec

/-! ## Coordinates -/

lemma mem_argwhere {a : NdArray Bool} {nx ny : ℕ} (hs : a.shape = [nx, ny]) (x : List ℕ) :
    x ∈ argwhere a ↔ ∃ i j, x = [i, j] ∧ i < nx ∧ j < ny ∧ a.get [i, j] = true := by
  simp only [argwhere, List.mem_map, List.mem_filter, List.mem_range, NdArray.size, NdArray.flat, hs]
  constructor
  · rintro ⟨k, ⟨hk, ht⟩, rfl⟩
    obtain ⟨i, j, e, hi, hj⟩ := valid2.mp (validIndex_unflat hk)
    rw [e] at ht ⊢
    exact ⟨i, j, rfl, hi, hj, ht⟩
  · rintro ⟨i, j, rfl, hi, hj, ht⟩
    have hv : validIndex [nx, ny] [i, j] := valid2.mpr ⟨i, j, rfl, hi, hj⟩
    exact ⟨flatIndex [nx, ny] [i, j], ⟨flatIndex_lt hv, by rwa [unflat_flat hv]⟩, unflat_flat hv⟩

lemma argwhere_pairwise {a : NdArray Bool} {nx ny : ℕ} (hs : a.shape = [nx, ny]) :
    (argwhere a).Pairwise fun x y => x < y := by
  unfold argwhere
  rw [List.pairwise_map]
  have h := (List.pairwise_lt_range (n := a.size)).filter (fun k => a.flat k)
  refine List.Pairwise.imp_of_mem ?_ h
  intro k l hk hl hkl
  have hk' := List.mem_range.mp (List.mem_filter.mp hk).1
  have hl' := List.mem_range.mp (List.mem_filter.mp hl).1
  simp only [NdArray.size, hs, List.prod_cons, List.prod_nil, mul_one] at hk' hl'
  simp only [hs, unflatIndex, List.prod_cons, List.prod_nil, mul_one, Nat.div_one]
  have hny : 0 < ny := by
    rcases Nat.eq_zero_or_pos ny with h | h
    · subst h; omega
    · exact h
  rw [List.cons_lt_cons_iff, List.cons_lt_cons_iff]
  rcases Nat.lt_or_ge (k / ny) (l / ny) with h1 | h1
  · exact .inl h1
  · have h2 : k / ny = l / ny := le_antisymm (Nat.div_le_div_right hkl.le) h1
    refine .inr ⟨h2, .inl ?_⟩
    have := Nat.div_add_mod k ny
    have := Nat.div_add_mod l ny
    rw [h2] at *
    omega

lemma length_argwhere (a : NdArray Bool) : (argwhere a).length = sumShape a.shape fun x => if a.get x then 1 else 0 := by
  rw [sumShape_flat, argwhere, List.length_map]
  have : ∀ n, ((List.range n).filter fun k => a.flat k).length = ∑ k ∈ range n, if a.get (unflatIndex a.shape k) = true then 1 else 0 := by
    intro n
    induction n with
    | zero => rfl
    | succ n ih =>
      rw [List.range_succ, List.filter_append, List.length_append, ih, sum_range_succ]
      congr 1
      simp only [NdArray.flat, List.filter_cons, List.filter_nil]
      cases h : a.get (unflatIndex a.shape n) <;> simp
  exact this _

/-- **C181** After every successful `minimize_proxy`, `compute_contact_coordinates()` lists the grid points with positive force and no
others, each once and in row-major order, and there are as many as `compute_nb_contact_pts()` says. -/
theorem C181_coordinates {S : Sys} {nx ny : ℕ} (r : OptResult) (hr : r.success = true) (hj : r.jac.shape = [nx, ny])
    {S' : Sys} {r' : Except PyErr OptResult} (hS : minimizeProxy S (.ok r) = (r', S')) :
    (∀ x, x ∈ computeContactCoordinates S' ↔ ∃ i j, x = [i, j] ∧ i < nx ∧ j < ny ∧ 0 < r.jac.get [i, j]) ∧
    (computeContactCoordinates S').Pairwise (· < ·) ∧ (computeContactCoordinates S').Nodup ∧
    computeNbContactPts S' = .ok (computeContactCoordinates S').length := by
  have hm := minimizeProxy_state S (.ok r)
  rw [hS] at hm
  dsimp only at hm
  rw [if_pos hr] at hm
  obtain ⟨-, -, -, -, h5⟩ := hm
  have hsh : (r.jac.map fun v => decide (0 < v)).shape = [nx, ny] := hj
  have hp := argwhere_pairwise hsh
  simp only [computeContactCoordinates, computeNbContactPts, h5]
  refine ⟨fun x => ?_, hp, ?_, ?_⟩
  · rw [mem_argwhere hsh]
    simp only [NdArray.map, decide_eq_true_eq]
  · exact hp.imp fun h => ne_of_lt h
  · rw [length_argwhere]

/-- **C181** (refuted: without a calculation, coordinates are an error like the number of points) On a new system, and whenever the
solver failed or raised, `compute_contact_coordinates()` returns an empty list, as if nothing touched, where `compute_nb_contact_pts()`
raises. -/
theorem C181_no_result_partial (S : Sys) (o : Except PyErr OptResult) (ho : ∀ r, o = .ok r → r.success = false) :
    computeContactCoordinates (minimizeProxy S o).2 = [] ∧ computeNbContactPts (minimizeProxy S o).2 = .error .typeError := by
  have hm := minimizeProxy_state S o
  dsimp only at hm
  have h5 : (minimizeProxy S o).2.contactZone = none := by
    cases o with
    | error e => exact hm.2.2.2.2
    | ok r => simp only [ho r rfl] at hm; exact hm.2.2.2.2
  exact ⟨by simp only [computeContactCoordinates, h5], by simp only [computeNbContactPts, h5]⟩

/-! ## Summaries -/

variable {R : Type} [Fintype R]

lemma sumShape2 {M : Type} [AddCommMonoid M] (n m : ℕ) (f : List ℕ → M) :
    sumShape [n, m] f = ∑ i ∈ range n, ∑ j ∈ range m, f [i, j] := rfl

omit [Fintype R] in
lemma parts_topo {nx ny : ℕ} {b : R → Block} (hb : Parts (2 * nx) (2 * ny) b) : Parts nx ny fun r => topoBlock nx ny (b r) := by
  refine ⟨fun r i j hi hj => ?_, fun i j hi hj => ?_⟩
  · simp only [topoBlock, topoSub] at hi hj ⊢
    omega
  · obtain ⟨r, hr, hu⟩ := hb.once i j (by omega) (by omega)
    refine ⟨r, ?_, fun r' h' => hu r' ?_⟩
    · simp only [holds_topoBlock, hr, hi, hj, and_self, decide_true, Bool.and_true]
    · simp only [holds_topoBlock, Bool.and_eq_true] at h'
      exact h'.1

/-- The computational grid of a system. -/
def IsGrid (sub : Substrate) (d0 d1 nx ny : ℕ) : Prop :=
  (sub.free = true → d0 = 2 * nx ∧ d1 = 2 * ny) ∧ (sub.free = false → d0 = nx ∧ d1 = ny)

omit [Fintype R] in
lemma Agrees.parts {d0 d1 nx ny : ℕ} {S : Sys} {T : R → ProcSys} (h : Agrees d0 d1 nx ny S T) (hg : IsGrid S.sub d0 d1 nx ny) :
    Parts nx ny fun r => (T r).topo nx ny := by
  cases hf : S.sub.free with
  | true =>
    obtain ⟨e0, e1⟩ := hg.1 hf
    have hp := h.grid
    rw [e0, e1] at hp
    have e : (fun r => (T r).topo nx ny) = fun r => topoBlock nx ny (T r).block := by
      funext r
      simp only [ProcSys.topo, h.sub r, hf, if_true, topoBlock, topoShape]
    rw [e]
    exact parts_topo hp
  | false =>
    obtain ⟨e0, e1⟩ := hg.2 hf
    have hp := h.grid
    rw [e0, e1] at hp
    have e : (fun r => (T r).topo nx ny) = fun r => (T r).block := by
      funext r
      simp only [ProcSys.topo, h.sub r, hf]
      rfl
    rw [e]
    exact hp

lemma SplitIn.sum {A M : Type} [AddCommMonoid M] {n0 n1 : ℕ} {b : R → Block} {F : NdArray A} {a : R → NdArray A} (h : SplitIn n0 n1 b F a)
    (hb : Parts n0 n1 b) (g : A → M) :
    ∑ r, sumShape (a r).shape (fun x => g ((a r).get x)) = sumShape F.shape fun x => g (F.get x) := by
  obtain ⟨h1, h2, h3⟩ := h
  rw [h1, sumShape2, ← sum_blocks hb fun i j => g (F.get [i, j])]
  refine sum_congr rfl fun r _ => ?_
  rw [h2 r, sumShape2]
  refine sum_congr rfl fun i hi => sum_congr rfl fun j hj => ?_
  exact congrArg g (h3 r i j (mem_range.mp hi) (mem_range.mp hj))

/-- **C181** On every process, normal force, number of contact points, contact area and relative contact area are those of the
whole system on a single process (the same exception without a result); and the contact coordinates of the system are those of the
processes, moved by the positions of their blocks. -/
theorem C181_summaries [Nonempty R] {d0 d1 nx ny : ℕ} {S : Sys} {T : R → ProcSys} (h : Agrees d0 d1 nx ny S T)
    (hg : IsGrid S.sub d0 d1 nx ny) :
    mpiNormalForce T = computeNormalForce S ∧ mpiNbContactPts T = computeNbContactPts S ∧
    (∀ r, mpiContactArea T r = computeContactArea S) ∧ (∀ r, mpiRelativeContactArea T r = computeRelativeContactArea S) ∧
    ∀ i j, [i, j] ∈ computeContactCoordinates S ↔
      ∃ r, ∃ k l, [k, l] ∈ procContactCoordinates (T r) ∧ i = (T r).block.loc0 + k ∧ j = (T r).block.loc1 + l := by
  have hb := h.parts hg
  have hnb : mpiNbContactPts T = computeNbContactPts S := by
    have hz := h.contactZone
    unfold mpiNbContactPts computeNbContactPts
    cases hc : S.contactZone with
    | none =>
      rw [hc] at hz
      have hz' : ∀ r, (T r).contactZone = none := hz
      rw [if_neg (by push Not; exact ⟨Classical.arbitrary R, by simp [hz']⟩)]
    | some c =>
      rw [hc] at hz
      obtain ⟨v, hv, hs⟩ := hz
      simp only [hv, Option.isSome_some, implies_true, if_true]
      rw [hs.sum hb fun x => if x = true then (1 : ℕ) else 0]
  have har : ∀ r, mpiContactArea T r = computeContactArea S := fun r => by
    unfold mpiContactArea computeContactArea
    rw [hnb, h.sub r]
  refine ⟨?_, hnb, har, fun r => ?_, fun i j => ?_⟩
  · have hz := h.subForce
    unfold mpiNormalForce computeNormalForce
    cases hc : S.subForce with
    | none =>
      rw [hc] at hz
      have hz' : ∀ r, (T r).subForce = none := hz
      rw [if_neg (by push Not; exact ⟨Classical.arbitrary R, by simp [hz']⟩)]
    | some c =>
      rw [hc] at hz
      obtain ⟨v, hv, hs⟩ := hz
      simp only [hv, Option.isSome_some, implies_true, if_true]
      unfold NdArray.sum
      rw [hs.sum hb fun x => x]
  · unfold mpiRelativeContactArea computeRelativeContactArea
    rw [har, h.sub r]
  · have hz := h.contactZone
    unfold computeContactCoordinates procContactCoordinates
    cases hc : S.contactZone with
    | none =>
      rw [hc] at hz
      have hz' : ∀ r, (T r).contactZone = none := hz
      simp [hz']
    | some c =>
      rw [hc] at hz
      obtain ⟨v, hv, hs1, hs2, hs3⟩ := hz
      have hs2 : ∀ r, (v r).shape = [((T r).topo nx ny).n0, ((T r).topo nx ny).n1] := hs2
      have hs3 : ∀ r i j, i < ((T r).topo nx ny).n0 → j < ((T r).topo nx ny).n1 →
          (v r).get [i, j] = c.get [((T r).topo nx ny).loc0 + i, ((T r).topo nx ny).loc1 + j] := hs3
      have eloc : ∀ r, ((T r).topo nx ny).loc0 = (T r).block.loc0 ∧ ((T r).topo nx ny).loc1 = (T r).block.loc1 := fun r => by
        unfold ProcSys.topo; split <;> exact ⟨rfl, rfl⟩
      simp only [hv]
      rw [mem_argwhere hs1]
      constructor
      · rintro ⟨i', j', e, hi, hj, ht⟩
        simp only [List.cons.injEq, and_true] at e
        obtain ⟨rfl, rfl⟩ := e
        obtain ⟨r, hr, -⟩ := hb.once i j hi hj
        simp only [holds, decide_eq_true_eq] at hr
        refine ⟨r, i - ((T r).topo nx ny).loc0, j - ((T r).topo nx ny).loc1, ?_, ?_, ?_⟩
        · rw [mem_argwhere (hs2 r)]
          refine ⟨_, _, rfl, by omega, by omega, ?_⟩
          rw [hs3 r _ _ (by omega) (by omega), Nat.add_sub_cancel' hr.1, Nat.add_sub_cancel' hr.2.2.1]
          exact ht
        · rw [← (eloc r).1]; omega
        · rw [← (eloc r).2]; omega
      · rintro ⟨r, k, l, hm, rfl, rfl⟩
        rw [mem_argwhere (hs2 r)] at hm
        obtain ⟨k', l', e, hk, hl, ht⟩ := hm
        simp only [List.cons.injEq, and_true] at e
        obtain ⟨rfl, rfl⟩ := e
        rw [hs3 r _ _ hk hl] at ht
        rw [← (eloc r).1, ← (eloc r).2]
        exact ⟨_, _, rfl, (hb.inside r k l hk hl).1, (hb.inside r k l hk hl).2, ht⟩

/-! ## minimize_proxy -/

/-- The boundary check is exact on this distribution of the grid (see C23): every process has points, no block begins at the last row or
column of the topography. -/
def CheckExact (nx ny : ℕ) (b : R → Block) : Prop :=
  ∀ r, 0 < (b r).n0 ∧ 0 < (b r).n1 ∧ ((b r).loc0 + 1 = nx → (b r).loc0 = 0) ∧ ((b r).loc1 + 1 = ny → (b r).loc1 = 0)

lemma checkLocal_congr {gx gy : ℕ} {tol : ℝ} {p q : Proc} (h0 : p.loc0 = q.loc0) (h1 : p.n0 = q.n0) (h2 : p.loc1 = q.loc1) (h3 : p.n1 = q.n1)
    (hgx : 0 < gx) (hgy : 0 < gy) (hn0 : 0 < p.n0) (hn1 : 0 < p.n1)
    (hf : ∀ i j, i < topoSub gx p.loc0 p.n0 → j < topoSub gy p.loc1 p.n1 → p.force i j = q.force i j ∧ p.masked i j = q.masked i j) :
    checkLocal gx gy tol p ↔ checkLocal gx gy tol q := by
  have hv : ∀ i j, i < topoSub gx p.loc0 p.n0 → j < topoSub gy p.loc1 p.n1 → (valOk p tol i j ↔ valOk q tol i j) := fun i j hi hj => by
    unfold valOk
    rw [(hf i j hi hj).1, (hf i j hi hj).2]
  have hx := topoSub_pos (n := gx) (loc := p.loc0) (m := p.n0)
  have hy := topoSub_pos (n := gy) (loc := p.loc1) (m := p.n1)
  unfold checkLocal
  rw [← h0, ← h1, ← h2, ← h3]
  dsimp only
  constructor
  all_goals
    rintro ⟨c1, c2, c3, c4⟩
    refine ⟨fun e i hi => ?_, fun e i hi => ?_, fun e j hj => ?_, fun e j hj => ?_⟩
    · first
        | exact (hv i 0 hi (by omega)).mp (c1 e i hi)
        | exact (hv i 0 hi (by omega)).mpr (c1 e i hi)
    · first
        | exact (hv i _ hi (by omega)).mp (c2 e i hi)
        | exact (hv i _ hi (by omega)).mpr (c2 e i hi)
    · first
        | exact (hv 0 j (by omega) hj).mp (c3 e j hj)
        | exact (hv 0 j (by omega) hj).mpr (c3 e j hj)
    · first
        | exact (hv _ j (by omega) hj).mp (c4 e j hj)
        | exact (hv _ j (by omega) hj).mpr (c4 e j hj)

lemma checkBoundaries_verdict {gx gy : ℕ} {tol : ℝ} {procs : List Proc} (h : ∀ p ∈ procs, ¬ checkIndexError gx gy p) :
    checkBoundaries gx gy tol procs = .ok () ∨ checkBoundaries gx gy tol procs = .error .freeBoundaryError := by
  unfold checkBoundaries
  rw [if_neg (by push Not; exact h)]
  split
  · exact .inl rfl
  · exact .inr rfl

lemma check_eq {nx ny : ℕ} (hnx : 0 < nx) (hny : 0 < ny) {b : R → Block} (hb : Parts (2 * nx) (2 * ny) b) (hc : CheckExact nx ny b)
    {F : NdArray ℝ} {f : R → ℕ → ℕ → ℝ} (hf : BlocksOf (fun r => topoBlock nx ny (b r)) F.get f) :
    checkBoundaries nx ny 0 ((univ : Finset R).toList.map fun r => ⟨(b r).loc0, (b r).n0, (b r).loc1, (b r).n1, f r, fun _ _ => false⟩) =
      checkBoundaries nx ny 0 [⟨0, 2 * nx, 0, 2 * ny, fun i j => F.get [i, j], fun _ _ => false⟩] := by
  set procs := (univ : Finset R).toList.map fun r => (⟨(b r).loc0, (b r).n0, (b r).loc1, (b r).n1, f r, fun _ _ => false⟩ : Proc) with hpr
  set procs' := (univ : Finset R).toList.map fun r => (⟨(b r).loc0, (b r).n0, (b r).loc1, (b r).n1,
    fun i j => F.get [(b r).loc0 + i, (b r).loc1 + j], fun _ _ => false⟩ : Proc) with hpr'
  have hd : Distributed nx ny (fun i j => F.get [i, j]) (fun _ _ => false) procs' := by
    refine ⟨?_, ?_, ?_, ?_⟩
    · intro p hp
      simp only [hpr', List.mem_map] at hp
      obtain ⟨r, -, rfl⟩ := hp
      exact ⟨(hc r).1, (hc r).2.1⟩
    · intro i j hi hj
      obtain ⟨r, hr, -⟩ := hb.once i j hi hj
      simp only [holds, decide_eq_true_eq] at hr
      exact ⟨_, List.mem_map.mpr ⟨r, by simp, rfl⟩, ⟨hr.1, hr.2.1⟩, hr.2.2.1, hr.2.2.2⟩
    · intro p hp i j
      simp only [hpr', List.mem_map] at hp
      obtain ⟨r, -, rfl⟩ := hp
      rfl
    · intro p hp i j
      simp only [hpr', List.mem_map] at hp
      obtain ⟨r, -, rfl⟩ := hp
      rfl
  have e1 := C23_check_boundaries_partial (0 : ℝ) hnx hny hd
    (by intro p hp; simp only [hpr', List.mem_map] at hp; obtain ⟨r, -, rfl⟩ := hp; exact (hc r).2.2.1)
    (by intro p hp; simp only [hpr', List.mem_map] at hp; obtain ⟨r, -, rfl⟩ := hp; exact (hc r).2.2.2)
  have e2 := C23_serial (fun i j => F.get [i, j]) (fun _ _ => false) (0 : ℝ) hnx hny
  have hcl : ∀ r, checkLocal nx ny 0 (⟨(b r).loc0, (b r).n0, (b r).loc1, (b r).n1, f r, fun _ _ => false⟩ : Proc) ↔
      checkLocal nx ny 0 (⟨(b r).loc0, (b r).n0, (b r).loc1, (b r).n1, fun i j => F.get [(b r).loc0 + i, (b r).loc1 + j], fun _ _ => false⟩ : Proc) :=
    fun r => checkLocal_congr rfl rfl rfl rfl hnx hny (hc r).1 (hc r).2.1 fun i j hi hj => ⟨hf r i j hi hj, rfl⟩
  have e3 : checkBoundaries nx ny 0 procs = checkBoundaries nx ny 0 procs' := by
    have hA : (∃ p ∈ procs, checkIndexError nx ny p) ↔ ∃ p ∈ procs', checkIndexError nx ny p := by
      constructor
      · rintro ⟨p, hp, hi⟩
        obtain ⟨r, hr, rfl⟩ := List.mem_map.mp hp
        exact ⟨_, List.mem_map.mpr ⟨r, hr, rfl⟩, hi⟩
      · rintro ⟨p, hp, hi⟩
        obtain ⟨r, hr, rfl⟩ := List.mem_map.mp hp
        exact ⟨_, List.mem_map.mpr ⟨r, hr, rfl⟩, hi⟩
    have hB : (∀ p ∈ procs, checkLocal nx ny 0 p) ↔ ∀ p ∈ procs', checkLocal nx ny 0 p := by
      constructor
      · intro h p hp
        obtain ⟨r, hr, rfl⟩ := List.mem_map.mp hp
        exact (hcl r).mp (h _ (List.mem_map.mpr ⟨r, hr, rfl⟩))
      · intro h p hp
        obtain ⟨r, hr, rfl⟩ := List.mem_map.mp hp
        exact (hcl r).mpr (h _ (List.mem_map.mpr ⟨r, hr, rfl⟩))
    unfold checkBoundaries
    by_cases ha : ∃ p ∈ procs, checkIndexError nx ny p
    · rw [if_pos ha, if_pos (hA.mp ha)]
    · rw [if_neg ha, if_neg fun h => ha (hA.mpr h)]
      by_cases hb' : ∀ p ∈ procs, checkLocal nx ny 0 p
      · rw [if_pos hb', if_pos (hB.mp hb')]
      · rw [if_neg hb', if_neg fun h => hb' (hB.mpr h)]
  rw [e3]
  by_cases hT : ∀ i j, onRing nx ny i j → tolerable (fun i j => F.get [i, j]) (fun _ _ => false) 0 i j
  · rw [e1.1.mpr hT, e2.1.mpr hT]
  · push Not at hT
    rw [e1.2.mpr hT, e2.2.mpr hT]

omit [Fintype R] in
lemma field_part {A : Type} [Inhabited A] {d0 d1 : ℕ} {b : R → Block} (hb : Parts d0 d1 b) (g : Fin d0 × Fin d1 → A) :
    BlocksOf b (Pipe.fieldArray d0 d1 g).get fun r i j => (Pipe.fieldArray (b r).n0 (b r).n1 ((blockDecomp b hb).part r g)).get [i, j] := by
  intro r i j hi hj
  have hin := hb.inside r i j hi hj
  simp only [Pipe.fieldArray, hi, hj, hin, and_self, dif_pos]
  rfl

omit [Fintype R] in
lemma topo_le {T : ProcSys} {nx ny i j : ℕ} (hi : i < (T.topo nx ny).n0) (hj : j < (T.topo nx ny).n1) : i < T.block.n0 ∧ j < T.block.n1 := by
  unfold ProcSys.topo at hi hj
  split at hi
  · simp_all only [if_true, topoShape, topoSub]
    omega
  · rename_i h
    rw [if_neg h] at hj
    exact ⟨hi, hj⟩

/-- **C181** `minimize_proxy` with the package's solver on several processes: from agreeing systems, for every distribution of the grid
and every set of arguments, no process waits in vain; every process returns or raises what a single process does (its blocks of the
arrays), and the systems agree afterwards.  If the boundary check is enabled, the distribution must be one on which it is exact. -/
theorem C181_minimize {d0 d1 nx ny : ℕ} {S : Sys} {T : R → ProcSys} (h : Agrees d0 d1 nx ny S T)
    (hg : IsGrid S.sub d0 d1 nx ny) (hgrid : S.sub.hs.nbGridPts = [nx, ny]) (hnx : 0 < nx) (hny : 0 < ny)
    (hc : S.sub.free = true → S.sub.checkFlag = true → CheckExact nx ny fun r => (T r).block)
    (rms : NdArray ℝ → ℝ) (o : CCG.Options (Fin d0 × Fin d1) ℝ) (B : ℝ → ℝ → CCG.Strat ℝ)
    (hB : ∀ f a b, o.bisect f a b = (B a b).run f) (ho : ∀ A, o.hardness ≠ .array A) (verbose callback : Bool) :
    let P := Pipe.ccgProblem S.sub rms d0 d1 nx ny S.heights
    let D := blockDecomp _ h.grid
    let serial := minimizeProxy S ((CCG.solve P o).map (Pipe.ccgResult nx ny))
    ∃ out, CCG.Run D P (fun r => CCG.psolve (P.loc D r) (CCG.pargs D o B verbose callback r)) out ∧
      ∃ T', mpiMinimizeProxy S.sub T (fun r => (out r).map fun w => procResult ((T r).topo nx ny).n0 ((T r).topo nx ny).n1 w.1) = some T' ∧
        Agrees d0 d1 nx ny serial.2 (fun r => (T' r).2) ∧
        match serial.1 with
        | .error e => ∀ r, (T' r).1 = .error e
        | .ok w => ∃ w' : R → OptResult, (∀ r, (T' r).1 = .ok (w' r)) ∧ (∀ r, (w' r).success = w.success ∧ (w' r).offset = w.offset) ∧
            SplitIn d0 d1 (fun r => (T r).block) w.x (fun r => (w' r).x) ∧
            SplitIn d0 d1 (fun r => (T r).block) w.activeSet (fun r => (w' r).activeSet) ∧
            SplitIn nx ny (fun r => (T r).topo nx ny) w.jac (fun r => (w' r).jac) ∧
            SplitIn nx ny (fun r => (T r).topo nx ny) w.plastic (fun r => (w' r).plastic) := by
  intro P D serial
  have hrun := CCG.C174_parallel D P o B hB ho verbose callback
  have hb := h.parts hg
  refine ⟨_, hrun, ?_⟩
  have hsolve : CCG.solve P o = (CCG.solveCb P o).map Prod.fst := rfl
  have eafter : ∀ (r : R) (res), (procAfter (T r) res).sub = (T r).sub ∧ (procAfter (T r) res).block = (T r).block := by
    intro r res
    unfold procAfter
    cases res with
    | error e => exact ⟨rfl, rfl⟩
    | ok w => dsimp only; split <;> exact ⟨rfl, rfl⟩
  have etopo : ∀ (r : R) (res), (procAfter (T r) res).topo nx ny = (T r).topo nx ny := by
    intro r res
    unfold ProcSys.topo
    rw [(eafter r res).1, (eafter r res).2]
  cases hs : CCG.solveCb P o with
  | error e =>
    have e1 : CCG.solve P o = .error e := by rw [hsolve, hs]; rfl
    have eser : serial = (.error e, clear S) := by
      show minimizeProxy S ((CCG.solve P o).map (Pipe.ccgResult nx ny)) = _
      rw [e1]; rfl
    simp only [Except.map]
    unfold mpiMinimizeProxy
    dsimp only [entersCheck]
    refine ⟨_, if_pos (.inr fun _ => rfl), ?_, ?_⟩
    · rw [eser]
      refine ⟨h.sub, h.offset, h.grid, fun r => rfl, fun r => rfl, ?_, fun r => rfl⟩
      exact h.subForce
    · rw [eser]
      exact fun r => rfl
  | ok w =>
    obtain ⟨w, cb⟩ := w
    have e1 : CCG.solve P o = .ok w := by rw [hsolve, hs]; rfl
    have eser0 : serial = minimizeProxy S (.ok (Pipe.ccgResult nx ny w)) := by
      show minimizeProxy S ((CCG.solve P o).map (Pipe.ccgResult nx ny)) = _
      rw [e1]; rfl
    simp only [Except.map]
    obtain ⟨res, hres⟩ : ∃ res : R → OptResult, res = fun r => procResult ((T r).topo nx ny).n0 ((T r).topo nx ny).n1 (w.loc D r) := ⟨_, rfl⟩
    have eres : ∀ r, procResult ((T r).topo nx ny).n0 ((T r).topo nx ny).n1 (w.loc D r) = res r := fun r => by rw [hres]
    simp only [eres]
    have hjac : SplitIn nx ny (fun r => (T r).topo nx ny) (Pipe.ccgResult nx ny w).jac fun r => (res r).jac := by
      rw [hres]
      refine ⟨rfl, fun r => rfl, fun r i j hi hj => ?_⟩
      have := topo_le hi hj
      have e := field_part h.grid w.jac r i j this.1 this.2
      have eloc : ((T r).topo nx ny).loc0 = (T r).block.loc0 ∧ ((T r).topo nx ny).loc1 = (T r).block.loc1 := by
        unfold ProcSys.topo; split <;> exact ⟨rfl, rfl⟩
      rw [eloc.1, eloc.2]
      exact e
    have hpl : SplitIn nx ny (fun r => (T r).topo nx ny) (Pipe.ccgResult nx ny w).plastic fun r => (res r).plastic := by
      rw [hres]
      refine ⟨rfl, fun r => rfl, fun r i j hi hj => ?_⟩
      have := topo_le hi hj
      have e := field_part h.grid (w.plastic.getD fun _ => false) r i j this.1 this.2
      have eloc : ((T r).topo nx ny).loc0 = (T r).block.loc0 ∧ ((T r).topo nx ny).loc1 = (T r).block.loc1 := by
        unfold ProcSys.topo; split <;> exact ⟨rfl, rfl⟩
      rw [eloc.1, eloc.2]
      have e2 : ((w.loc D r).plastic.getD fun _ => false) = D.part r (w.plastic.getD fun _ => false) := by
        show ((w.plastic.map (D.part r)).getD fun _ => false) = _
        cases w.plastic <;> rfl
      show (Pipe.fieldArray _ _ ((w.loc D r).plastic.getD fun _ => false)).get [i, j] = _
      rw [e2]
      exact e
    have hx : SplitIn d0 d1 (fun r => (T r).block) (Pipe.ccgResult nx ny w).x fun r => (res r).x := by
      rw [hres]
      exact ⟨rfl, fun r => rfl, fun r i j hi hj => field_part h.grid w.x r i j hi hj⟩
    have ha : SplitIn d0 d1 (fun r => (T r).block) (Pipe.ccgResult nx ny w).activeSet fun r => (res r).activeSet := by
      rw [hres]
      exact ⟨rfl, fun r => rfl, fun r i j hi hj => field_part h.grid w.activeSet r i j hi hj⟩
    have hsuc : ∀ r, (res r).success = w.success := fun r => by rw [hres]; rfl
    have hoff : ∀ r, (res r).offset = w.offset := fun r => by rw [hres]; rfl
    have hent : ∀ r, entersCheck (T r) (.ok (res r)) = (w.success && S.sub.free && S.sub.checkFlag) := fun r => by
      unfold entersCheck; rw [h.sub r, ← hsuc r]
    have hsome : (∀ r, entersCheck (T r) (.ok (res r)) = true) ∨ ∀ r, entersCheck (T r) (.ok (res r)) = false := by
      simp only [hent]
      cases (w.success && S.sub.free && S.sub.checkFlag)
      · exact .inr fun _ => rfl
      · exact .inl fun _ => rfl
    have hcheck : w.success = true → procCheck S.sub (fun r => procAfter (T r) (.ok (res r))) =
        S.sub.check (Pipe.ccgResult nx ny w).jac := by
      intro hw
      unfold procCheck Substrate.check
      by_cases hfc : S.sub.free = true ∧ S.sub.checkFlag = true
      · rw [if_pos hfc, if_pos hfc, hgrid]
        dsimp only
        obtain ⟨e0, e1'⟩ := hg.1 hfc.1
        have hp := h.grid
        rw [e0, e1'] at hp
        have hff : BlocksOf (fun r => topoBlock nx ny (T r).block) (Pipe.ccgResult nx ny w).jac.get fun r i j => (res r).jac.get [i, j] := by
          have e : (fun r => (T r).topo nx ny) = fun r => topoBlock nx ny (T r).block := by
            funext r
            simp only [ProcSys.topo, h.sub r, hfc.1, if_true, topoBlock, topoShape]
          rw [← e]
          exact hjac.2.2
        have := check_eq hnx hny hp (hc hfc.1 hfc.2) hff
        rw [← this]
        congr 2
        funext r
        simp only [procAfter, hsuc, hw, if_true]
      · rw [if_neg hfc, if_neg hfc]
    unfold mpiMinimizeProxy
    dsimp only
    rw [if_pos hsome]
    refine ⟨_, rfl, ?_, ?_⟩
    · rw [eser0]
      have hm := minimizeProxy_state S (.ok (Pipe.ccgResult nx ny w))
      have hfr : (minimizeProxy S (.ok (Pipe.ccgResult nx ny w))).2.sub = S.sub := by
        unfold minimizeProxy
        dsimp only
        split
        · split <;> rfl
        · rfl
      dsimp only at hm ⊢
      have e3 : (Pipe.ccgResult nx ny w).success = w.success := rfl
      rw [e3] at hm
      refine ⟨fun r => ?_, fun r => ?_, ?_, ?_, ?_, ?_, ?_⟩
      · rw [hfr, (eafter r _).1]; exact h.sub r
      · cases hw : w.success with
        | true =>
          rw [hw] at hm
          rw [hm.2.2.2.1]
          simp only [procAfter, hsuc, hw, if_true, hoff]
          rfl
        | false =>
          rw [hw] at hm
          rw [hm.2.2.2.1]
          simp only [procAfter, hsuc, hw]
          exact h.offset r
      · simp only [(eafter _ _).2]; exact h.grid
      · simp only [(eafter _ _).2]
        cases hw : w.success with
        | true =>
          rw [hw] at hm
          rw [hm.1]
          simp only [procAfter, hsuc, hw, if_true]
          exact ⟨_, fun r => rfl, hx⟩
        | false =>
          rw [hw] at hm
          rw [hm.1]
          simp only [procAfter, hsuc, hw]
          exact fun r => rfl
      · simp only [etopo]
        cases hw : w.success with
        | true =>
          rw [hw] at hm
          rw [hm.2.1]
          simp only [procAfter, hsuc, hw, if_true]
          exact ⟨_, fun r => rfl, hjac⟩
        | false =>
          rw [hw] at hm
          rw [hm.2.1]
          simp only [procAfter, hsuc, hw]
          exact fun r => rfl
      · simp only [etopo]
        cases hw : w.success with
        | true =>
          rw [hw] at hm
          rw [hm.2.2.1]
          simp only [procAfter, hsuc, hw, if_true]
          exact ⟨_, fun r => rfl, hjac⟩
        | false =>
          rw [hw] at hm
          rw [hm.2.2.1]
          simp only [procAfter, hsuc, hw]
          exact h.subForce
      · simp only [etopo]
        cases hw : w.success with
        | true =>
          rw [hw] at hm
          rw [hm.2.2.2.2]
          simp only [procAfter, hsuc, hw, if_true]
          refine ⟨_, fun r => rfl, rfl, fun r => hjac.2.1 r, fun r i j hi hj => ?_⟩
          exact congrArg (fun v : ℝ => decide (0 < v)) (hjac.2.2 r i j hi hj)
        | false =>
          rw [hw] at hm
          rw [hm.2.2.2.2]
          simp only [procAfter, hsuc, hw]
          exact fun r => rfl
    · rw [eser0]
      simp only [hent]
      have e3 : (Pipe.ccgResult nx ny w).success = w.success := rfl
      unfold minimizeProxy
      simp only [e3]
      cases hw : w.success with
      | false =>
        simp only [Bool.false_and, if_neg Bool.false_ne_true]
        exact ⟨res, fun r => rfl, fun r => ⟨(hsuc r).trans e3.symm, hoff r⟩, hx, ha, hjac, hpl⟩
      | true =>
        rw [hcheck hw]
        simp only [Bool.true_and, if_true]
        have e4 : ∀ (S0 : Sys), S0.sub = S.sub → S0.sub.check (Pipe.ccgResult nx ny w).jac = S.sub.check (Pipe.ccgResult nx ny w).jac :=
          fun S0 h => by rw [h]
        have e5 : (clear S).sub = S.sub := rfl
        simp only [e5]
        cases hch : S.sub.check (Pipe.ccgResult nx ny w).jac with
        | ok u =>
          refine ⟨res, fun r => ?_, fun r => ⟨(hsuc r).trans e3.symm, hoff r⟩, hx, ha, hjac, hpl⟩
          split <;> rfl
        | error e =>
          intro r
          dsimp only
          have : (S.sub.free && S.sub.checkFlag) = true := by
            by_contra hn
            unfold Substrate.check at hch
            rw [if_neg (by rw [← Bool.and_eq_true]; exact hn)] at hch
            simp at hch
          rw [if_pos this]

omit [Fintype R] in
/-- **C181** Systems constructed on all processes for blocks of the grid agree with the one constructed on a single process. -/
theorem C181_construct {d0 d1 nx ny : ℕ} {sub : Substrate} {heights : NdArray ℝ} {S : Sys} {b : R → Block} (hb : Parts d0 d1 b)
    (hS : mkSystem sub heights = .ok S) :
    ∃ T : R → ProcSys, (∀ r, mkProcSystem sub heights.shape (b r) = .ok (T r)) ∧ (∀ r, (T r).block = b r) ∧ Agrees d0 d1 nx ny S T := by
  unfold mkSystem at hS
  cases hc : compareContainers (tupleOf heights.shape) (tupleOf sub.hs.nbGridPts) with
  | error e => rw [hc] at hS; simp [bind, Except.bind] at hS
  | ok v =>
    cases v with
    | false => rw [hc] at hS; simp [bind, Except.bind, throw, throwThe, MonadExceptOf.throw] at hS
    | true =>
      rw [hc] at hS
      simp only [bind, Except.bind, pure, Except.pure, if_true, Except.ok.injEq] at hS
      refine ⟨fun r => ⟨sub, b r, none, none, none, none, none⟩, fun r => ?_, fun r => rfl, ?_⟩
      · simp only [mkProcSystem, hc, bind, Except.bind, pure, Except.pure, if_true]
      · subst hS
        exact ⟨fun r => rfl, fun r => rfl, hb, fun r => rfl, fun r => rfl, fun r => rfl, fun r => rfl⟩

/-- The serial system has the grid the theorems above ask for. -/
lemma system2_grid {S : Sys} {nx ny : ℕ} (h : System2 S nx ny) : ∃ d0 d1, IsGrid S.sub d0 d1 nx ny ∧ S.sub.hs.domain = [d0, d1] ∧
    S.sub.hs.nbGridPts = [nx, ny] ∧ 0 < nx ∧ 0 < ny := by
  rcases h with ⟨a, h⟩ | ⟨a, h⟩
  · obtain ⟨h1, h2, h3, h4⟩ := per_grid h
    exact ⟨nx, ny, ⟨fun e => by rw [h.periodic] at e; simp at e, fun _ => ⟨rfl, rfl⟩⟩, h2, h1, by omega, by omega⟩
  · obtain ⟨h1, h2, h3, h4⟩ := free_grid h
    exact ⟨2 * nx, 2 * ny, ⟨fun _ => ⟨rfl, rfl⟩, fun e => by rw [h.free] at e; simp at e⟩, h2, h1, by omega, by omega⟩

omit [Fintype R] in
/-- **C181** (refuted: the coordinates of the processes are coordinates of the system) Whatever the distribution of the grid, if some
process has a block that does not begin at the origin, there is a state of the system -- with a single point in contact -- in which no
process reports this point and one of them reports a point that is not in contact. -/
theorem C181_local_coordinates_partial {nx ny : ℕ} {sub : Substrate} (hf : sub.free = false) (heights : NdArray ℝ) {b : R → Block}
    (hb : Parts nx ny b) (r0 : R) (hn : 0 < (b r0).n0 ∧ 0 < (b r0).n1) (hl : (b r0).loc0 ≠ 0 ∨ (b r0).loc1 ≠ 0) :
    ∃ (S : Sys) (T : R → ProcSys), S.sub = sub ∧ S.heights = heights ∧ (∀ r, (T r).block = b r) ∧ Agrees nx ny nx ny S T ∧
      computeContactCoordinates S = [[(b r0).loc0, (b r0).loc1]] ∧ [(b r0).loc0, (b r0).loc1] ≠ [0, 0] ∧
      procContactCoordinates (T r0) = [[0, 0]] ∧ ∀ r, r ≠ r0 → procContactCoordinates (T r) = [] := by
  set F : NdArray ℝ := ⟨[nx, ny], fun x => if x = [(b r0).loc0, (b r0).loc1] then 1 else 0⟩ with hF
  set f : R → NdArray ℝ := fun r => ⟨[(b r).n0, (b r).n1], fun x => match x with
    | [i, j] => F.get [(b r).loc0 + i, (b r).loc1 + j]
    | _ => 0⟩ with hff
  set z : NdArray ℝ := ⟨[nx, ny], fun _ => 0⟩
  set S : Sys := (minimizeProxy ⟨sub, heights, none, none, none, none, none, none, none, none, none, none⟩
    (.ok ⟨true, z, F, 0, F.map fun _ => false, F.map fun _ => true⟩)).2 with hS
  set T : R → ProcSys := fun r => procAfter ⟨sub, b r, none, none, none, none, none⟩
    (.ok ⟨true, ⟨[(b r).n0, (b r).n1], fun _ => 0⟩, f r, 0, (f r).map fun _ => false, (f r).map fun _ => true⟩) with hT
  have hst := minimizeProxy_state ⟨sub, heights, none, none, none, none, none, none, none, none, none, none⟩
    (.ok ⟨true, z, F, 0, F.map fun _ => false, F.map fun _ => true⟩)
  have hfr := minimizeProxy_frame ⟨sub, heights, none, none, none, none, none, none, none, none, none, none⟩
    (.ok ⟨true, z, F, 0, F.map fun _ => false, F.map fun _ => true⟩)
  rw [← hS] at hst hfr
  dsimp only at hst hfr
  simp only [if_true] at hst
  have hTb : ∀ r, (T r).block = b r := fun r => rfl
  have htopo : ∀ r, (T r).topo nx ny = b r := fun r => by
    show (if sub.free = true then _ else _) = _
    rw [if_neg (by rw [hf]; simp)]
    rfl
  have hin := hb.inside r0 0 0 hn.1 hn.2
  have hsplit : SplitIn nx ny b F f := ⟨rfl, fun r => rfl, fun r i j hi hj => rfl⟩
  have hcz : SplitIn nx ny b (F.map fun v => decide (0 < v)) fun r => (f r).map fun v => decide (0 < v) :=
    ⟨rfl, fun r => rfl, fun r i j hi hj => rfl⟩
  have hag : Agrees nx ny nx ny S T := by
    refine ⟨fun r => hfr.1.symm, fun r => hst.2.2.2.1.symm, hb, ?_, ?_, ?_, ?_⟩
    · rw [hst.1]; exact ⟨_, fun r => rfl, rfl, fun r => rfl, fun r i j hi hj => rfl⟩
    · rw [hst.2.1]; simp only [htopo]; exact ⟨_, fun r => rfl, hsplit⟩
    · rw [hst.2.2.1]; simp only [htopo]; exact ⟨_, fun r => rfl, hsplit⟩
    · rw [hst.2.2.2.2]; simp only [htopo]; exact ⟨_, fun r => rfl, hcz⟩
  have hone : ∀ (l : List (List ℕ)) (x : List ℕ), l.Pairwise (· < ·) → (∀ y, y ∈ l ↔ y = x) → l = [x] := by
    intro l x hp hm
    match l with
    | [] => exact absurd ((hm x).mpr rfl) (by simp)
    | [y] => rw [(hm y).mp (by simp)]
    | y :: y' :: l =>
      have h1 := (hm y).mp (by simp)
      have h2 := (hm y').mp (by simp)
      subst h1; subst h2
      have := (List.pairwise_cons.mp hp).1 _ (List.mem_cons_self)
      exact absurd this (lt_irrefl _)
  have hFz : ∀ i j, 0 < F.get [i, j] ↔ i = (b r0).loc0 ∧ j = (b r0).loc1 := by
    intro i j
    simp only [hF, List.cons.injEq, and_true]
    split
    · simpa using ‹_›
    · simpa only [lt_self_iff_false, false_iff] using ‹_›
  have hproc : ∀ r x, x ∈ procContactCoordinates (T r) ↔ ∃ i j, x = [i, j] ∧ i < (b r).n0 ∧ j < (b r).n1 ∧
      (b r).loc0 + i = (b r0).loc0 ∧ (b r).loc1 + j = (b r0).loc1 := by
    intro r x
    show x ∈ argwhere ((f r).map fun v => decide (0 < v)) ↔ _
    rw [mem_argwhere (nx := (b r).n0) (ny := (b r).n1) rfl]
    simp only [NdArray.map, decide_eq_true_eq, hff, hFz]
  refine ⟨S, T, hfr.1, hfr.2, hTb, hag, ?_, by simp only [ne_eq, List.cons.injEq, and_true]; omega, ?_, ?_⟩
  · refine hone _ _ ?_ ?_
    · simp only [computeContactCoordinates, hst.2.2.2.2]
      exact argwhere_pairwise (nx := nx) (ny := ny) rfl
    · intro y
      simp only [computeContactCoordinates, hst.2.2.2.2]
      rw [mem_argwhere (nx := nx) (ny := ny) rfl]
      simp only [NdArray.map, decide_eq_true_eq, hFz]
      constructor
      · rintro ⟨i, j, rfl, -, -, rfl, rfl⟩; rfl
      · rintro rfl; exact ⟨_, _, rfl, hin.1, hin.2, rfl, rfl⟩
  · refine hone _ _ (argwhere_pairwise (nx := (b r0).n0) (ny := (b r0).n1) rfl) ?_
    intro y
    rw [hproc]
    constructor
    · rintro ⟨i, j, rfl, -, -, h1, h2⟩
      have : i = 0 := by omega
      have : j = 0 := by omega
      subst i; subst j; rfl
    · rintro rfl; exact ⟨0, 0, rfl, hn.1, hn.2, rfl, rfl⟩
  · intro r hr
    rw [List.eq_nil_iff_forall_not_mem]
    intro x hx
    obtain ⟨i, j, -, hi, hj, h1, h2⟩ := (hproc r x).mp hx
    obtain ⟨q, -, hu⟩ := hb.once _ _ hin.1 hin.2
    have e1 := hu r0 (by simp only [holds, decide_eq_true_eq]; omega)
    have e2 := hu r (by simp only [holds, decide_eq_true_eq]; omega)
    exact hr (e2.trans e1.symm)

/-! ## Examples -/

/-- The hypotheses can be met: a 4 × 4 grid on three processes, one of them without points. -/
example : ∃ (S : Sys) (T : Fin 3 → ProcSys), System2 S 4 4 ∧ IsGrid S.sub 4 4 4 4 ∧ S.sub.hs.nbGridPts = [4, 4] ∧ Agrees 4 4 4 4 S T ∧
    (S.sub.free = true → S.sub.checkFlag = true → CheckExact 4 4 fun r => (T r).block) := by
  obtain ⟨s, hs⟩ := (C13_construct_ok_iff ⟨[4, 4], 1, [1, 1], none, none, 0, none⟩).mpr (by simp)
  have hv : ValidArgs ⟨[4, 4], 1, [1, 1], none, none, 0, none⟩ := by constructor <;> simp
  have hsys : System2 ⟨⟨s, false, false⟩, ⟨[4, 4], fun _ => 0⟩, none, none, none, none, none, none, none, none, none, none⟩ 4 4 :=
    .inl ⟨_, hv, hs, rfl, rfl, rfl⟩
  obtain ⟨-, -, -, -, hgr, -, -⟩ := system2_grid hsys
  refine ⟨_, fun r => ⟨⟨s, false, false⟩, demoReal r, none, none, none, none, none⟩, hsys, ⟨fun h => by simp at h, fun _ => ⟨rfl, rfl⟩⟩, hgr,
    ⟨fun r => rfl, fun r => rfl, demo_parts.1, fun r => rfl, fun r => rfl, fun r => rfl, fun r => rfl⟩, fun h => by simp at h⟩

/-- The hypotheses of the refutation can be met: the second of these processes. -/
example : 0 < (demoReal 1).n0 ∧ 0 < (demoReal 1).n1 ∧ ((demoReal 1).loc0 ≠ 0 ∨ (demoReal 1).loc1 ≠ 0) := by
  simp [demoReal]

/-- A distribution on which the boundary check is exact: a padded 8 × 8 grid, two processes. -/
example : CheckExact 4 4 ((![⟨0, 4, 0, 8⟩, ⟨4, 4, 0, 8⟩] : Fin 2 → Block)) := by
  intro r; fin_cases r <;> simp

end CM.System
