import Verif.Model.ParallelPlastic
import Verif.Props.ParallelSystems
/-!
# C218: plastic contact systems on several processes
-/
namespace CM.System
open Finset CM.HS CM.FFT CM.Spec

section Spec
variable {R : Type}

/-- The plastic systems of the processes are, together, the plastic system `P` of a single process. -/
structure AgreesPlastic (d0 d1 nx ny : ℕ) (P : PSys) (T : R → ProcPSys) : Prop where
  sys : Agrees d0 d1 nx ny P.sys fun r => (T r).sys
  state : PlasticState P
  base : SplitIn nx ny (fun r => (T r).sys.topo nx ny) P.base fun r => (T r).base
  displ : SplitIn nx ny (fun r => (T r).sys.topo nx ny) P.plasticDispl fun r => (T r).plasticDispl
  hardness : ∀ r, (T r).hardness = P.hardness
  area : ∀ r, (T r).areaPerPt = P.areaPerPt

/-- What the processes return or raise is what a single process does: every process its blocks of the arrays. -/
def SameOutcome (d0 d1 nx ny : ℕ) (block topo : R → Block) (serial : Except PyErr OptResult) (par : R → Except PyErr OptResult) : Prop :=
  match serial with
  | .error e => ∀ r, par r = .error e
  | .ok w => ∃ w' : R → OptResult, (∀ r, par r = .ok (w' r)) ∧ (∀ r, (w' r).success = w.success ∧ (w' r).offset = w.offset) ∧
      SplitIn d0 d1 block w.x (fun r => (w' r).x) ∧ SplitIn d0 d1 block w.activeSet (fun r => (w' r).activeSet) ∧
      SplitIn nx ny topo w.jac (fun r => (w' r).jac) ∧ SplitIn nx ny topo w.plastic fun r => (w' r).plastic

end Spec

variable {R : Type}

lemma AgreesPlastic.topo {d0 d1 nx ny : ℕ} {P : PSys} {T : R → ProcPSys} (h : AgreesPlastic d0 d1 nx ny P T) : P.sys.sub.topo = [nx, ny] :=
  h.state.base.symm.trans h.base.1

lemma topo_congr {nx ny : ℕ} {T T' : ProcSys} (hs : T'.sub = T.sub) (hb : T'.block = T.block) : T'.topo nx ny = T.topo nx ny := by
  unfold ProcSys.topo
  rw [hs, hb]

/-- The update of the plastic displacement, on arrays that fit. -/
lemma update_fits {n m a b : ℕ} {x heights displ : NdArray ℝ} {plastic : NdArray Bool} (offset : ℝ) (hx : x.shape = [a, b]) (hn : n ≤ a)
    (hm : m ≤ b) (hh : heights.shape = [n, m]) (hd : displ.shape = [n, m]) (hp : plastic.shape = [n, m]) :
    ∃ pd : NdArray ℝ, ((do
        let g ← (do let d ← sliceTo [n, m] x; binop (· - ·) d (heights.map (· + offset)) : Except PyErr (NdArray ℝ))
        let w ← binop (fun (b : Bool) (v : ℝ) => if b then v else 0) plastic g
        binop (· + ·) displ w : Except PyErr (NdArray ℝ)) = .ok pd) ∧ pd.shape = [n, m] ∧
      ∀ i j, i < n → j < m → pd.get [i, j] = displ.get [i, j] +
        if plastic.get [i, j] then x.get [i, j] - (heights.get [i, j] + offset) else 0 := by
  have e1 : sliceTo [n, m] x = .ok ⟨[n, m], x.get⟩ := sliceTo_le (by rw [hx]; exact .cons hn (.cons hm .nil))
  obtain ⟨g, hg, hgs, hgv⟩ := binop_same (fun u v : ℝ => u - v) (a := (⟨[n, m], x.get⟩ : NdArray ℝ)) (b := heights.map (· + offset)) rfl hh
  obtain ⟨w, hw, hws, hwv⟩ := binop_same (fun (b : Bool) (v : ℝ) => if b then v else 0) hp hgs
  obtain ⟨pd, hpd, hpds, hpdv⟩ := binop_same (fun u v : ℝ => u + v) hd hws
  refine ⟨pd, ?_, hpds, fun i j hi hj => ?_⟩
  · rw [e1]
    simp only [bind, Except.bind]
    rw [hg]
    dsimp only
    rw [hw]
    exact hpd
  · have hv : validIndex [n, m] [i, j] := valid2.mpr ⟨i, j, rfl, hi, hj⟩
    rw [hpdv _ hv, hwv _ hv, hgv _ hv]
    rfl

lemma AgreesPlastic.heights {d0 d1 nx ny : ℕ} {P : PSys} {T : R → ProcPSys} (h : AgreesPlastic d0 d1 nx ny P T)
    (hp : Parts nx ny fun r => (T r).sys.topo nx ny) :
    SplitIn nx ny (fun r => (T r).sys.topo nx ny) P.sys.heights fun r => (T r).heights := by
  refine ⟨h.state.shape.trans h.topo, fun r => h.base.2.1 r, fun r i j hi hj => ?_⟩
  have hin := hp.inside r i j hi hj
  show (T r).base.get [i, j] + (T r).plasticDispl.get [i, j] = _
  have e1 : (T r).base.get [i, j] = _ := h.base.2.2 r i j hi hj
  have e2 : (T r).plasticDispl.get [i, j] = _ := h.displ.2.2 r i j hi hj
  rw [e1, e2]
  exact (h.state.heights _ (by rw [h.topo]; exact valid2.mpr ⟨_, _, rfl, hin.1, hin.2⟩)).symm

lemma topo_loc (T : ProcSys) (nx ny : ℕ) : (T.topo nx ny).loc0 = T.block.loc0 ∧ (T.topo nx ny).loc1 = T.block.loc1 := by
  unfold ProcSys.topo; split <;> exact ⟨rfl, rfl⟩

lemma lt_topo {T : ProcSys} {nx ny i j : ℕ} (hi : i < T.block.n0) (hj : j < T.block.n1) (hx : T.block.loc0 + i < nx)
    (hy : T.block.loc1 + j < ny) : i < (T.topo nx ny).n0 ∧ j < (T.topo nx ny).n1 := by
  unfold ProcSys.topo
  split
  · simp only [topoShape, topoSub]; omega
  · exact ⟨hi, hj⟩

lemma topo_block_le (T : ProcSys) (nx ny : ℕ) : (T.topo nx ny).n0 ≤ T.block.n0 ∧ (T.topo nx ny).n1 ≤ T.block.n1 := by
  unfold ProcSys.topo
  split
  · simp only [topoShape, topoSub]; omega
  · exact ⟨le_refl _, le_refl _⟩

variable [Fintype R]

lemma mpiMinimizeProxy_block {sub : Substrate} {T : R → ProcSys} {res : R → Except PyErr OptResult} {T' : R → Except PyErr OptResult × ProcSys}
    (h : mpiMinimizeProxy sub T res = some T') (r : R) : (T' r).2.block = (T r).block := by
  unfold mpiMinimizeProxy at h
  dsimp only at h
  split at h
  · cases h
    show (procAfter (T r) (res r)).block = _
    unfold procAfter
    cases res r with
    | error e => rfl
    | ok w => dsimp only; split <;> rfl
  · exact absurd h (by simp)

/-- **C218** `minimize_proxy` of a plastic system with the package's solver on several processes: from agreeing systems, for every
distribution of the grid and all arguments, no process waits in vain; every process returns or raises what a single process does, and
surfaces and systems agree afterwards: every process has its block of the plastic displacement and of the heights.  What the solver of
a process sees of the surface are the heights this process holds. -/
theorem C218_minimize {d0 d1 nx ny : ℕ} {P : PSys} {T : R → ProcPSys} (h : AgreesPlastic d0 d1 nx ny P T)
    (hg : IsGrid P.sys.sub d0 d1 nx ny) (hgrid : P.sys.sub.hs.nbGridPts = [nx, ny]) (hnx : 0 < nx) (hny : 0 < ny)
    (hc : P.sys.sub.free = true → P.sys.sub.checkFlag = true → CheckExact nx ny fun r => (T r).sys.block)
    (rms : NdArray ℝ → ℝ) (o : CCG.Options (Fin d0 × Fin d1) ℝ) (B : ℝ → ℝ → CCG.Strat ℝ)
    (hB : ∀ f a b, o.bisect f a b = (B a b).run f) (verbose callback : Bool) :
    let Q := Pipe.ccgProblem P.sys.sub rms d0 d1 nx ny P.sys.heights
    let D := blockDecomp _ h.sys.grid
    let serial := plasticMinimizeProxy P fun H => (CCG.solve Q { o with hardness := .scalar H }).map (Pipe.ccgResult nx ny)
    (∀ r (p : Fin (T r).sys.block.n0 × Fin (T r).sys.block.n1), (Q.loc D r).slice p = true → (Q.loc D r).h p = (T r).heights.get [p.1, p.2]) ∧
    ∃ out, CCG.Run D Q
        (fun r => CCG.psolve (Q.loc D r) (CCG.pargs D { o with hardness := .scalar (T r).force } B verbose callback r)) out ∧
      ∃ T', mpiPlasticMinimizeProxy P.sys.sub nx ny T
          (fun r => (out r).map fun w => procResult ((T r).sys.topo nx ny).n0 ((T r).sys.topo nx ny).n1 w.1) = some T' ∧
        AgreesPlastic d0 d1 nx ny serial.2 (fun r => (T' r).2) ∧
        (∀ r, (T' r).2.sys.block = (T r).sys.block) ∧ serial.2.sys.sub = P.sys.sub ∧
        SameOutcome d0 d1 nx ny (fun r => (T r).sys.block) (fun r => (T r).sys.topo nx ny) serial.1 fun r => (T' r).1 := by
  intro Q D serial
  have hparts := h.sys.parts hg
  have hforce : ∀ r, (T r).force = P.hardness * P.areaPerPt := fun r => by
    unfold ProcPSys.force; rw [h.hardness r, h.area r]
  have hhe := h.heights hparts
  refine ⟨fun r p hp => ?_, ?_⟩
  · have hp' : (decide ((T r).sys.block.loc0 + p.1.val < nx) && decide ((T r).sys.block.loc1 + p.2.val < ny)) = true := hp
    simp only [Bool.and_eq_true, decide_eq_true_eq] at hp'
    have hl := lt_topo p.1.2 p.2.2 hp'.1 hp'.2
    have e := hhe.2.2 r p.1 p.2 hl.1 hl.2
    dsimp only at e
    rw [(topo_loc (T r).sys nx ny).1, (topo_loc (T r).sys nx ny).2] at e
    exact e.symm
  obtain ⟨out, hrun, T', hT', hag, hout⟩ := C181_minimize h.sys hg hgrid hnx hny hc rms
    { o with hardness := .scalar (P.hardness * P.areaPerPt) } B hB (fun A => by simp) verbose callback
  simp only [hforce]
  refine ⟨out, hrun, _, by unfold mpiPlasticMinimizeProxy; rw [hT']; rfl, ?_⟩
  have hblk := mpiMinimizeProxy_block hT'
  have hfr := minimizeProxy_frame P.sys ((CCG.solve Q { o with hardness := .scalar (P.hardness * P.areaPerPt) }).map (Pipe.ccgResult nx ny))
  have eser : serial = (match minimizeProxy P.sys ((CCG.solve Q { o with hardness := .scalar (P.hardness * P.areaPerPt) }).map (Pipe.ccgResult nx ny)) with
    | z => plasticMinimizeProxy P fun H => (CCG.solve Q { o with hardness := .scalar H }).map (Pipe.ccgResult nx ny)) := rfl
  unfold plasticMinimizeProxy at eser
  dsimp only at eser hag hout
  generalize minimizeProxy P.sys ((CCG.solve Q { o with hardness := .scalar (P.hardness * P.areaPerPt) }).map (Pipe.ccgResult nx ny)) = z at *
  obtain ⟨so, S'⟩ := z
  dsimp only at hfr hag hout eser
  have hsub' : ∀ r, (T' r).2.sub = (T r).sys.sub := fun r => by rw [hag.sub r, hfr.1, ← h.sys.sub r]
  have htopo' : ∀ r, (T' r).2.topo nx ny = (T r).sys.topo nx ny := fun r => topo_congr (hsub' r) (hblk r)
  have hP' : PlasticState { P with sys := S' } := ⟨by dsimp only; rw [hfr.1, hfr.2]; exact h.state.shape, by dsimp only; rw [hfr.1]; exact h.state.base,
    by dsimp only; rw [hfr.1]; exact h.state.displ, by dsimp only; rw [hfr.1, hfr.2]; exact h.state.heights⟩
  -- systems when the surfaces do not change
  have hkeep : AgreesPlastic d0 d1 nx ny { P with sys := S' } fun r => { T r with sys := (T' r).2 } := by
    refine ⟨hag, hP', ?_, ?_, h.hardness, h.area⟩
    · simp only [htopo']; exact h.base
    · simp only [htopo']; exact h.displ
  cases so with
  | error e =>
    have e1 : ∀ r, T' r = (.error e, (T' r).2) := fun r => by rw [← hout r]
    have e2 : ∀ r, procPlasticAfter nx ny (T r) (T' r) = (.error e, { T r with sys := (T' r).2 }) := fun r => by rw [e1 r]; rfl
    rw [eser]
    simp only [e2]
    exact ⟨hkeep, hblk, hfr.1, fun r => rfl⟩
  | ok w =>
    obtain ⟨w', hw1, hw2, hx, ha, hj, hpl⟩ := hout
    have e1 : ∀ r, T' r = (.ok (w' r), (T' r).2) := fun r => by rw [← hw1 r]
    cases hs : w.success with
    | false =>
      have e2 : ∀ r, procPlasticAfter nx ny (T r) (T' r) = (.ok (w' r), { T r with sys := (T' r).2 }) := fun r => by
        rw [e1 r]
        unfold procPlasticAfter
        dsimp only
        rw [if_neg (by rw [(hw2 r).1, hs]; simp)]
      dsimp only at eser
      rw [if_neg (by rw [hs]; simp)] at eser
      rw [eser]
      simp only [e2]
      exact ⟨hkeep, hblk, hfr.1, w', fun r => rfl, hw2, hx, ha, hj, hpl⟩
    | true =>
      have hle : nx ≤ d0 ∧ ny ≤ d1 := by
        cases hf : P.sys.sub.free with
        | true => have := hg.1 hf; omega
        | false => have := hg.2 hf; omega
      obtain ⟨pd, hpd, hpds, hpdv⟩ := update_fits (n := nx) (m := ny) (heights := S'.heights) (displ := P.plasticDispl) (plastic := w.plastic)
        w.offset hx.1 hle.1 hle.2 (by rw [hfr.2]; exact hhe.1) h.displ.1 hpl.1
      have hloc : ∀ r, ∃ v : NdArray ℝ, procPlasticAfter nx ny (T r) (T' r) = (.ok (w' r), { T r with sys := (T' r).2, plasticDispl := v }) ∧
          v.shape = [((T r).sys.topo nx ny).n0, ((T r).sys.topo nx ny).n1] ∧
          ∀ i j, i < ((T r).sys.topo nx ny).n0 → j < ((T r).sys.topo nx ny).n1 → v.get [i, j] = (T r).plasticDispl.get [i, j] +
            if (w' r).plastic.get [i, j] then (w' r).x.get [i, j] - ((T r).heights.get [i, j] + (w' r).offset) else 0 := by
        intro r
        have hb := topo_block_le (T r).sys nx ny
        obtain ⟨v, hv, hvs, hvv⟩ := update_fits (n := ((T r).sys.topo nx ny).n0) (m := ((T r).sys.topo nx ny).n1) (x := (w' r).x)
          (heights := (T r).heights) (displ := (T r).plasticDispl) (plastic := (w' r).plastic) (w' r).offset (hx.2.1 r) hb.1 hb.2
          (hhe.2.1 r) (h.displ.2.1 r) (hpl.2.1 r)
        refine ⟨v, ?_, hvs, hvv⟩
        rw [e1 r]
        unfold procPlasticAfter
        dsimp only
        rw [if_pos (by rw [(hw2 r).1, hs])]
        have : (do
            let g ← procGap { T r with sys := (T' r).2 } nx ny (w' r).x (w' r).offset
            let m ← binop (fun (b : Bool) (v : ℝ) => if b then v else 0) (w' r).plastic g
            binop (· + ·) (T r).plasticDispl m : Except PyErr (NdArray ℝ)) = .ok v := by
          rw [← hv]
          unfold procGap
          dsimp only
          rw [htopo' r]
          rfl
        rw [this]
      choose v hv hvs hvv using hloc
      have eg : (do
          let g ← computeGap S' w.x w.offset
          let m ← binop (fun (b : Bool) (v : ℝ) => if b then v else 0) w.plastic g
          binop (· + ·) P.plasticDispl m : Except PyErr (NdArray ℝ)) = .ok pd := by
        rw [← hpd]
        unfold computeGap
        rw [hfr.1, h.topo]
      dsimp only at eser
      rw [if_pos hs, eg] at eser
      dsimp only at eser
      rw [eser]
      simp only [hv]
      refine ⟨⟨?_, ?_, ?_, ?_, h.hardness, h.area⟩, hblk, hfr.1, w', fun r => rfl, hw2, hx, ha, hj, hpl⟩
      · exact ⟨hag.sub, hag.offset, hag.grid, hag.disp, hag.force, hag.subForce, hag.contactZone⟩
      · exact ⟨by dsimp only; rw [hfr.1]; exact h.state.base, by dsimp only; rw [hfr.1]; exact h.state.base,
          by dsimp only; rw [hfr.1, h.topo]; exact hpds, fun x _ => rfl⟩
      · simp only [htopo']; exact h.base
      · simp only [htopo']
        refine ⟨hpds, hvs, fun r i j hi hj' => ?_⟩
        have hin := hparts.inside r i j hi hj'
        dsimp only at hin ⊢
        have k1 : (w' r).plastic.get [i, j] = _ := hpl.2.2 r i j hi hj'
        have kb := topo_le hi hj'
        have k2 : (w' r).x.get [i, j] = _ := hx.2.2 r i j kb.1 kb.2
        have k3 : (T r).heights.get [i, j] = _ := hhe.2.2 r i j hi hj'
        have k4 : (T r).plasticDispl.get [i, j] = _ := h.displ.2.2 r i j hi hj'
        rw [hvv r i j hi hj', hpdv _ _ hin.1 hin.2, hfr.2, k1, k2, k3, k4, (hw2 r).2, (topo_loc (T r).sys nx ny).1, (topo_loc (T r).sys nx ny).2]

/-! ## Histories -/

omit [Fintype R] in
/-- Calls of `minimize_proxy` of a plastic system on a single process, one after the other, with these arguments; what they return or
raise, and the system afterwards. -/
noncomputable def serialHistory (rms : NdArray ℝ → ℝ) (d0 d1 nx ny : ℕ) (P : PSys) :
    List (CCG.Options (Fin d0 × Fin d1) ℝ) → List (Except PyErr OptResult) × PSys
  | [] => ([], P)
  | o :: os =>
    let z := plasticMinimizeProxy P fun H =>
      (CCG.solve (Pipe.ccgProblem P.sys.sub rms d0 d1 nx ny P.sys.heights) { o with hardness := .scalar H }).map (Pipe.ccgResult nx ny)
    let zs := serialHistory rms d0 d1 nx ny z.2 os
    (z.1 :: zs.1, zs.2)

/-- Calls of `minimize_proxy` on all processes, one after the other: every call is an execution of the solvers of the processes, on
surfaces whose heights are, together, those of the grid, followed by the update of all processes. -/
inductive ParHistory (sub : Substrate) (rms : NdArray ℝ → ℝ) (d0 d1 nx ny : ℕ) (B : ℝ → ℝ → CCG.Strat ℝ) (verbose callback : Bool) :
    (R → ProcPSys) → List (CCG.Options (Fin d0 × Fin d1) ℝ) → List (R → Except PyErr OptResult) → (R → ProcPSys) → Prop where
  | nil (T) : ParHistory sub rms d0 d1 nx ny B verbose callback T [] [] T
  | cons (T o os outs Tn) (hb : Parts d0 d1 fun r => (T r).sys.block) (heights : NdArray ℝ)
      (hh : SplitIn nx ny (fun r => (T r).sys.topo nx ny) heights fun r => (T r).heights) (out T')
      (run : CCG.Run (blockDecomp _ hb) (Pipe.ccgProblem sub rms d0 d1 nx ny heights)
        (fun r => CCG.psolve ((Pipe.ccgProblem sub rms d0 d1 nx ny heights).loc (blockDecomp _ hb) r)
          (CCG.pargs (blockDecomp _ hb) { o with hardness := .scalar (T r).force } B verbose callback r)) out)
      (after : mpiPlasticMinimizeProxy sub nx ny T
        (fun r => (out r).map fun w => procResult ((T r).sys.topo nx ny).n0 ((T r).sys.topo nx ny).n1 w.1) = some T')
      (rest : ParHistory sub rms d0 d1 nx ny B verbose callback (fun r => (T' r).2) os outs Tn) :
      ParHistory sub rms d0 d1 nx ny B verbose callback T (o :: os) ((fun r => (T' r).1) :: outs) Tn

/-- **C218** Over any history of plastic calculations -- each may succeed, fail or raise -- the processes end in a state that agrees with
that of a single process, every call returned or raised the same, and the surface of every process has, at every point of its block, the
height the last successful calculation that flagged the point pressed it to. -/
theorem C218_history {d0 d1 nx ny : ℕ} {P : PSys} {T : R → ProcPSys} (h : AgreesPlastic d0 d1 nx ny P T)
    (hg : IsGrid P.sys.sub d0 d1 nx ny) (hgrid : P.sys.sub.hs.nbGridPts = [nx, ny]) (hnx : 0 < nx) (hny : 0 < ny)
    (hc : P.sys.sub.free = true → P.sys.sub.checkFlag = true → CheckExact nx ny fun r => (T r).sys.block)
    (rms : NdArray ℝ → ℝ) (B : ℝ → ℝ → CCG.Strat ℝ) (os : List (CCG.Options (Fin d0 × Fin d1) ℝ))
    (hB : ∀ o ∈ os, ∀ f a b, o.bisect f a b = (B a b).run f) (verbose callback : Bool) :
    ∃ outs Tn, ParHistory P.sys.sub rms d0 d1 nx ny B verbose callback T os outs Tn ∧
      AgreesPlastic d0 d1 nx ny (serialHistory rms d0 d1 nx ny P os).2 Tn ∧ (∀ r, (Tn r).sys.block = (T r).sys.block) ∧
      List.Forall₂ (SameOutcome d0 d1 nx ny (fun r => (T r).sys.block) fun r => (T r).sys.topo nx ny)
        (serialHistory rms d0 d1 nx ny P os).1 outs ∧
      ∀ r i j, i < ((T r).sys.topo nx ny).n0 → j < ((T r).sys.topo nx ny).n1 →
        (Tn r).heights.get [i, j] = pressedHeight [(T r).sys.block.loc0 + i, (T r).sys.block.loc1 + j]
          ((T r).heights.get [i, j]) (serialHistory rms d0 d1 nx ny P os).1 := by
  induction os generalizing P T with
  | nil =>
    exact ⟨_, _, .nil T, h, fun r => rfl, .nil, fun r i j hi hj => rfl⟩
  | cons o os ih =>
    have hparts := h.sys.parts hg
    have hhe := h.heights hparts
    obtain ⟨-, out, hrun, T', hT', hag, hblk, hsub, hout⟩ := C218_minimize h hg hgrid hnx hny hc rms o B (hB o (by simp)) verbose callback
    have hC58 := C58_plastic_update P h.state (fun H =>
      (CCG.solve (Pipe.ccgProblem P.sys.sub rms d0 d1 nx ny P.sys.heights) { o with hardness := .scalar H }).map (Pipe.ccgResult nx ny)) (by
        intro r hr
        have hle : nx ≤ d0 ∧ ny ≤ d1 := by
          cases hf : P.sys.sub.free with
          | true => have := hg.1 hf; omega
          | false => have := hg.2 hf; omega
        rw [h.topo]
        cases hs : CCG.solve (Pipe.ccgProblem P.sys.sub rms d0 d1 nx ny P.sys.heights) { o with hardness := .scalar (P.hardness * P.areaPerPt) } with
        | error e => rw [hs] at hr; simp [Except.map] at hr
        | ok w =>
          rw [hs] at hr
          simp only [Except.map, Except.ok.injEq] at hr
          subst hr
          exact ⟨.cons hle.1 (.cons hle.2 .nil), rfl⟩)
    obtain ⟨-, -, -, -, -, -, h7, h8⟩ := hC58
    have hser : serialHistory rms d0 d1 nx ny P (o :: os) =
      ((plasticMinimizeProxy P fun H => (CCG.solve (Pipe.ccgProblem P.sys.sub rms d0 d1 nx ny P.sys.heights) { o with hardness := .scalar H }).map (Pipe.ccgResult nx ny)).1 ::
        (serialHistory rms d0 d1 nx ny (plasticMinimizeProxy P fun H => (CCG.solve (Pipe.ccgProblem P.sys.sub rms d0 d1 nx ny P.sys.heights) { o with hardness := .scalar H }).map (Pipe.ccgResult nx ny)).2 os).1,
       (serialHistory rms d0 d1 nx ny (plasticMinimizeProxy P fun H => (CCG.solve (Pipe.ccgProblem P.sys.sub rms d0 d1 nx ny P.sys.heights) { o with hardness := .scalar H }).map (Pipe.ccgResult nx ny)).2 os).2) := rfl
    generalize (plasticMinimizeProxy P fun H => (CCG.solve (Pipe.ccgProblem P.sys.sub rms d0 d1 nx ny P.sys.heights) { o with hardness := .scalar H }).map (Pipe.ccgResult nx ny)) = z at *
    obtain ⟨so, P'⟩ := z
    dsimp only at hag hsub hout h7 h8 hser
    have htopo : ∀ r, (T' r).2.sys.topo nx ny = (T r).sys.topo nx ny := fun r =>
      topo_congr (by rw [hag.sys.sub r, hsub, ← h.sys.sub r]) (hblk r)
    obtain ⟨outs, Tn, k1, k2, k3, k4, k5⟩ := ih hag (by rw [hsub]; exact hg) (by rw [hsub]; exact hgrid)
      (by rw [hsub]; simp only [hblk]; exact hc) (fun o' ho' => hB o' (by simp [ho']))
    rw [hsub] at k1
    simp only [hblk] at k3 k4 k5
    simp only [htopo] at k4 k5
    rw [hser]
    refine ⟨_, _, .cons T o os outs Tn h.sys.grid P.sys.heights hhe out T' hrun hT' k1, k2, k3, .cons hout k4, fun r i j hi hj => ?_⟩
    rw [k5 r i j hi hj]
    have hparts' := hag.sys.parts (by rw [hsub]; exact hg)
    have hhe' := hag.heights hparts'
    have hin := hparts.inside r i j hi hj
    have e1 : (T' r).2.heights.get [i, j] = _ := hhe'.2.2 r i j (by simp only [htopo]; exact hi) (by simp only [htopo]; exact hj)
    have e2 : (T r).heights.get [i, j] = _ := hhe.2.2 r i j hi hj
    simp only [htopo] at e1
    rw [(topo_loc (T r).sys nx ny).1, (topo_loc (T r).sys nx ny).2] at e1 e2 hin
    have hv : validIndex P.sys.sub.topo [(T r).sys.block.loc0 + i, (T r).sys.block.loc1 + j] := by
      rw [h.topo]; exact valid2.mpr ⟨_, _, rfl, hin.1, hin.2⟩
    cases so with
    | error e =>
      show _ = pressedHeight _ _ (serialHistory rms d0 d1 nx ny P' os).1
      rw [e1, e2, (h8 (by simp)).2]
    | ok w =>
      show _ = pressedHeight _ (if w.success && w.plastic.get _ then w.x.get _ - w.offset else _) _
      congr 1
      rw [e1, e2]
      by_cases hs : w.success = true
      · obtain ⟨f1, g, -, f2⟩ := h7 w rfl hs
        cases hp : w.plastic.get [(T r).sys.block.loc0 + i, (T r).sys.block.loc1 + j] with
        | false => rw [(f1 _ hv hp).2]; simp
        | true => rw [(f2 _ hv hp).2]; simp [hs]
      · rw [(h8 (by intro r' e; cases e; simpa using hs)).2]; simp [hs]

omit [Fintype R] in
/-- **C218** Plastic systems constructed on all processes -- every surface with its block of the base heights and no plastic displacement --
agree with the one constructed on a single process. -/
theorem C218_construct {d0 d1 nx ny : ℕ} {sub : Substrate} {base : NdArray ℝ} {S : Sys} {b : R → Block} (hb : Parts d0 d1 b)
    (hS : mkSystem sub base = .ok S) (hs : base.shape = [nx, ny]) (ht : sub.topo = [nx, ny]) (H A : ℝ) :
    ∃ T : R → ProcPSys, (∀ r, mkProcSystem sub base.shape (b r) = .ok (T r).sys) ∧ (∀ r, (T r).sys.block = b r) ∧
      (∀ r, (T r).base = ⟨[((T r).sys.topo nx ny).n0, ((T r).sys.topo nx ny).n1], fun x => match x with
        | [i, j] => base.get [(b r).loc0 + i, (b r).loc1 + j]
        | _ => 0⟩) ∧
      (∀ r x, (T r).plasticDispl.get x = 0) ∧ (∀ r, (T r).hardness = H ∧ (T r).areaPerPt = A) ∧
      AgreesPlastic d0 d1 nx ny ⟨S, base, ⟨base.shape, fun _ => 0⟩, H, A⟩ T := by
  obtain ⟨T, h1, h2, h3⟩ := C181_construct (nx := nx) (ny := ny) hb hS
  have hSs : S.sub = sub ∧ S.heights = base := by
    unfold mkSystem at hS
    cases hc : compareContainers (tupleOf base.shape) (tupleOf sub.hs.nbGridPts) with
    | error e => rw [hc] at hS; simp [bind, Except.bind] at hS
    | ok v =>
      cases v with
      | false => rw [hc] at hS; simp [bind, Except.bind, throw, throwThe, MonadExceptOf.throw] at hS
      | true =>
        rw [hc] at hS
        simp only [bind, Except.bind, pure, Except.pure, if_true, Except.ok.injEq] at hS
        subst hS
        exact ⟨rfl, rfl⟩
  refine ⟨fun r => ⟨T r, ⟨[((T r).topo nx ny).n0, ((T r).topo nx ny).n1], fun x => match x with
        | [i, j] => base.get [(b r).loc0 + i, (b r).loc1 + j]
        | _ => 0⟩, ⟨[((T r).topo nx ny).n0, ((T r).topo nx ny).n1], fun _ => 0⟩, H, A⟩, h1, h2, fun r => rfl, fun r x => rfl,
    fun r => ⟨rfl, rfl⟩, h3, ?_, ?_, ?_, fun r => rfl, fun r => rfl⟩
  · refine ⟨?_, ?_, ?_, fun x _ => ?_⟩
    · dsimp only; rw [hSs.1, hSs.2, hs, ht]
    · dsimp only; rw [hSs.1, hs, ht]
    · dsimp only; rw [hSs.1, hs, ht]
    · dsimp only; rw [hSs.2, add_zero]
  · refine ⟨hs, fun r => rfl, fun r i j hi hj => ?_⟩
    dsimp only
    rw [(topo_loc (T r) nx ny).1, (topo_loc (T r) nx ny).2, h2 r]
  · exact ⟨hs, fun r => rfl, fun r i j hi hj => rfl⟩

/-! ## Example -/

/-- The hypotheses can be met: a 4 × 4 grid on three processes, one of them without points. -/
example : ∃ (P : PSys) (T : Fin 3 → ProcPSys), IsGrid P.sys.sub 4 4 4 4 ∧ P.sys.sub.hs.nbGridPts = [4, 4] ∧
    AgreesPlastic 4 4 4 4 P T ∧ P.base.get [1, 2] = 3 ∧
    (P.sys.sub.free = true → P.sys.sub.checkFlag = true → CheckExact 4 4 fun r => (T r).sys.block) := by
  obtain ⟨s, hs⟩ := (C13_construct_ok_iff ⟨[4, 4], 1, [1, 1], none, none, 0, none⟩).mpr (by simp)
  have hv : ValidArgs ⟨[4, 4], 1, [1, 1], none, none, 0, none⟩ := by constructor <;> simp
  have hper : PeriodicSystem ⟨⟨s, false, false⟩, ⟨[4, 4], fun x => if x = [1, 2] then 3 else 0⟩, none, none, none, none, none, none, none, none, none, none⟩
      ⟨[4, 4], 1, [1, 1], none, none, 0, none⟩ 4 4 := ⟨hv, hs, rfl, rfl, rfl⟩
  have hsys : System2 ⟨⟨s, false, false⟩, ⟨[4, 4], fun x => if x = [1, 2] then 3 else 0⟩, none, none, none, none, none, none, none, none, none, none⟩ 4 4 :=
    .inl ⟨_, hper⟩
  obtain ⟨-, -, -, -, hgr, -, -⟩ := system2_grid hsys
  have ht : (⟨s, false, false⟩ : Substrate).topo = [4, 4] := by
    exact (per_grid hper).1
  have hmk : mkSystem ⟨s, false, false⟩ ⟨[4, 4], fun x => if x = [1, 2] then 3 else 0⟩ =
      .ok ⟨⟨s, false, false⟩, ⟨[4, 4], fun x => if x = [1, 2] then 3 else 0⟩, none, none, none, none, none, none, none, none, none, none⟩ := by
    have e : compareContainers (tupleOf [4, 4]) (tupleOf s.nbGridPts) = .ok true := by
      have : s.nbGridPts = [4, 4] := hgr
      rw [this]; rfl
    simp only [mkSystem, e, bind, Except.bind, pure, Except.pure, if_true]
  obtain ⟨T, -, -, -, -, -, hT⟩ := C218_construct (nx := 4) (ny := 4) (demo_parts.1) hmk rfl ht 2 (1 / 16)
  exact ⟨_, T, ⟨fun h => by simp at h, fun _ => ⟨rfl, rfl⟩⟩, hgr, hT, by simp, fun h => by simp at h⟩

end CM.System
