import Verif.Props.CCGNan
import Verif.Props.CCGRounded
/-!
# Property C210, relation to the solver without `nan`
-/
set_option linter.unusedSectionVars false

namespace CM.CCG.Nan
open PyFloat
variable {ι : Type} [Fintype ι] {P : Problem ι ℝ} {Q : Problem ι PyFloat} {o : Options ι ℝ} {q : Options ι PyFloat}

theorem fsum_nums (p : ι → Bool) (a : ι → ℝ) : fsum p (fun i => num (a i)) = num (sumOver p a) := by
  unfold fsum; rw [if_pos fun i _ => isNum_num _]; rfl

theorem fmax_nums (p : ι → Bool) (a : ι → ℝ) : fmax p (fun i => num (a i)) = num (maxOver p a) := by
  unfold fmax; rw [if_pos fun i _ => isNum_num _]; rfl

theorem fmin_nums (p : ι → Bool) (a : ι → ℝ) : fmin p (fun i => num (a i)) = num (minOver p a) := by
  unfold fmin; rw [if_pos fun i _ => isNum_num _]; rfl

theorem lt_num (x y : ℝ) : (num x).lt (num y) = decide (x < y) := by simp [PyFloat.lt]
theorem le_num (x y : ℝ) : (num x).le (num y) = decide (x ≤ y) := by simp [PyFloat.le]
theorem ne0_num (x : ℝ) : (num x).ne0 = decide (x ≠ 0) := by simp [PyFloat.ne0]
theorem abs_num (x : ℝ) : (num x).abs = num (pabs x) := rfl
theorem sqrt_num (x : ℝ) : (num x).sqrt = num (Real.sqrt x) := rfl

theorem relLt_num (a b t : ℝ) : relLt (num a) (num b) (num t) = CCG.relLt a b t := by
  unfold relLt CCG.relLt
  by_cases h : a = 0
  · have : num (a - b) / num a = nan := by
      change (if a = 0 then nan else _) = _
      rw [if_pos h]
    rw [num_sub, this]
    simp [h]
  · rw [num_sub, num_div h, abs_num, lt_num]
    simp [h]

theorem max2_num (a b : ℝ) : (num a).max2 (num b) = num (max a b) := by
  unfold PyFloat.max2
  rw [lt_num]
  by_cases h : a < b
  · simp [h, max_eq_right h.le]
  · simp [h, max_eq_left (not_lt.1 h)]

theorem hardAt_num (hq : SameOptions o q) (i : ι) : hardAt q i = num (o.hardness.at i) := by
  unfold hardAt
  rw [hq.hardness]
  cases o.hardness <;> rfl

theorem isSome_num (hq : SameOptions o q) : q.hardness.isSome = o.hardness.isSome := by
  rw [hq.hardness]; cases o.hardness <;> rfl

theorem truth_num (hq : SameOptions o q) : hardTruth q = o.hardness.truth := by
  have := hq.scalar
  unfold hardTruth
  rw [hq.hardness]
  cases h : o.hardness with
  | none => rfl
  | scalar H => simp only [numHardness, Hardness.truth, ne0_num]
  | array H => exact absurd h (this H)

/-- The local variables without `nan`. -/
def numState (s : State ι ℝ) : State ι PyFloat :=
  { f := nums s.f, u := nums s.u, t := nums s.t, delta := s.delta, status := s.status, Gold := num s.Gold, mixfacCur := num s.mixfacCur, mixsteps := s.mixsteps,
    lastMaxHeight := s.lastMaxHeight.map num, lastTotalForce := s.lastTotalForce.map num, offset := num s.offset, nfev := s.nfev }

def numMid (m : Mid ι ℝ) : Mid ι PyFloat :=
  { f := nums m.f, t := nums m.t, g := nums m.g, c := m.c, offset := num m.offset, G := num m.G, tau := num m.tau, status := m.status,
    mixfacCur := num m.mixfacCur, mixsteps := m.mixsteps, nfev := m.nfev }

def numOut (w : StepOut ι ℝ) : StepOut ι PyFloat :=
  { next := numState w.next, c := w.c, g := nums w.g, nc := w.nc, tau := num w.tau, Acontact := w.Acontact, Acg := w.Acg, G := num w.G, maxPres := num w.maxPres,
    padPres := num w.padPres, maxPen := num w.maxPen, maxdu := num w.maxdu, totalForce := num w.totalForce, converged := w.converged }

theorem contact_num (s : State ι ℝ) : contact (numState s) = CCG.contact s := by
  funext i; simp [contact, CCG.contact, numState, nums, zero_def, lt_num]

theorem cgSet_num (hq : SameOptions o q) (s : State ι ℝ) : cgSet q (numState s) = CCG.cgSet o s := by
  funext i
  simp [cgSet, CCG.cgSet, numState, nums, zero_def, lt_num, isSome_num hq, hardAt_num hq]

theorem doCG_num (hq : SameOptions o q) (s : State ι ℝ) : doCG q (numState s) = CCG.doCG o s := by
  unfold doCG CCG.doCG
  rw [isSome_num hq, contact_num, cgSet_num hq]
  congr!

theorem sumOver_mask (p c : ι → Bool) (a b : ι → ℝ) :
    sumOver p (fun i => (if c i then a i else 0) * b i) = sumOver (fun i => c i && p i) fun i => a i * b i := by
  unfold sumOver
  apply Finset.sum_congr rfl
  intro i _
  by_cases hp : p i = true <;> by_cases hc : c i = true <;> simp [hp, hc]

theorem sumOver_mask_all (c : ι → Bool) (a b : ι → ℝ) :
    sumOver (fun _ => true) (fun i => (if c i then a i else 0) * b i) = sumOver c fun i => a i * b i := by
  rw [sumOver_mask]; simp

theorem cgOffset_num (hP : SameProblem P Q) (hq : SameOptions o q) (s : State ι ℝ) :
    cgOffset Q q (numState s) = num (CCG.cgOffset P o s) := by
  unfold cgOffset CCG.cgOffset
  rw [hq.externalForce, cgSet_num hq, hP.comp, hP.h]
  cases o.externalForce with
  | none => rfl
  | some F =>
    simp only [Option.map_some, numState, nums, num_sub, fsum_nums]
    split_ifs with h
    · rw [num_div (by exact_mod_cast h.ne')]
    · rfl

theorem cgDir_num (hP : SameProblem P Q) (s : State ι ℝ) (c : ι → Bool) (g : ι → ℝ) (G : ℝ) :
    cgDir Q (numState s) c (nums g) (num G) = nums (CCG.cgDir P s c g G) := by
  funext i
  unfold cgDir CCG.cgDir nums
  rw [hP.comp]
  simp only [numState, nums, zero_def, lt_num]
  by_cases hc : P.comp i = true
  · simp only [hc, if_true]
    by_cases hd : (s.delta && decide (0 < s.Gold)) = true
    · rw [if_pos hd, if_pos hd]
      have : s.Gold ≠ 0 := by simp at hd; exact hd.2.ne'
      rw [num_div this, num_mul, num_add, mask_num]
    · rw [if_neg hd, if_neg hd, mask_num]
  · simp only [hc]; rfl

theorem cgBranch_num (hP : SameProblem P Q) (hq : SameOptions o q) (s : State ι ℝ) :
    cgBranch Q q (numState s) = numMid (CCG.cgBranch P o s) := by
  have hg : ∀ i, (numState s).u i - Q.h i - num (CCG.cgOffset P o s) = num (s.u i - P.h i - CCG.cgOffset P o s) := by
    intro i; rw [hP.h]; rfl
  unfold cgBranch CCG.cgBranch
  simp only [cgSet_num hq, cgOffset_num hP hq, hg]
  generalize CCG.cgOffset P o s = off
  generalize CCG.cgSet o s = c
  generalize hgd : (fun i => s.u i - P.h i - off) = g
  have hgi : ∀ i, s.u i - P.h i - off = g i := fun i => by rw [← hgd]
  simp only [hgi]
  have hG : fsum Q.comp (fun i => (num (g i)).mask (c i) * num (g i)) = num (sumOver (fun i => c i && P.comp i) fun i => g i * g i) := by
    simp only [mask_num, num_mul, fsum_nums, hP.comp, sumOver_mask]
  rw [hG]
  generalize (sumOver (fun i => c i && P.comp i) fun i => g i * g i) = G
  have ht : cgDir Q (numState s) c (fun i => num (g i)) (num G) = nums (CCG.cgDir P s c g G) := cgDir_num hP s c g G
  rw [ht]
  generalize CCG.cgDir P s c g G = t
  rw [hP.disp]
  have hx : -(fsum (fun _ => true) fun i => ((nums (P.disp t)) i).mask (c i) * (nums t) i) =
      num (-(sumOver c fun i => P.disp t i * t i)) := by
    simp only [nums, mask_num, num_mul, fsum_nums, sumOver_mask_all, neg_num]
  have hy : fsum Q.comp (fun i => (num (g i)).mask (c i) * (nums t) i) =
      num (sumOver (fun i => c i && P.comp i) fun i => g i * t i) := by
    simp only [nums, mask_num, num_mul, fsum_nums, hP.comp, sumOver_mask]
  rw [hx, hy]
  generalize (-(sumOver c fun i => P.disp t i * t i)) = x
  generalize (sumOver (fun i => c i && P.comp i) fun i => g i * t i) = y
  simp only [zero_def, lt_num, decide_eq_true_eq]
  have htau : (if 0 < count c ∧ 0 < x then num y / num x else num 0) = num (if 0 < count c ∧ 0 < x then y / x else 0) := by
    split_ifs with h
    · rw [num_div h.2.ne']
    · rfl
  rw [htau]
  generalize (if 0 < count c ∧ 0 < x then y / x else 0) = tau
  have hG' : (if 0 < count c ∧ ¬ 0 < x then num 0 else num G) = num (if 0 < count c ∧ ¬ 0 < x then 0 else G) := by
    split_ifs <;> rfl
  rw [hG']
  have hf : (fun i => (numState s).f i + (num tau).mask (c i) * nums t i) =
      nums fun i => if c i then s.f i + tau * t i else s.f i := by
    funext i
    simp only [numState, nums, mask_num, num_mul, num_add]
    split_ifs <;> simp
  rw [hf, hq.mixfac]
  rfl

theorem mixBranch_num (hP : SameProblem P Q) (hq : SameOptions o q) (s : State ι ℝ) :
    mixBranch Q q (numState s) = (CCG.mixBranch P o s).map numMid := by
  unfold mixBranch CCG.mixBranch
  have hg : ∀ i, (numState s).u i - Q.h i = num (s.u i - P.h i) := fun i => by rw [hP.h]; rfl
  simp only [hg, hP.comp, fmax_nums, fmin_nums, hq.externalForce, cgSet_num hq]
  have key : ∀ off : ℝ,
      ({ f := fun i => (num 1 - (numState s).mixfacCur) * (numState s).f i - ((numState s).mixfacCur * hardAt q i).mask
            (if P.comp i = true then (num (s.u i - P.h i) - num off).lt 0 else CCG.cgSet o s i)
         t := (numState s).t
         g := fun i => num (s.u i - P.h i) - num off
         c := fun i => if P.comp i = true then (num (s.u i - P.h i) - num off).lt 0 else CCG.cgSet o s i
         offset := num off, G := 0, tau := 0, status := .mix
         mixfacCur := (numState s).mixfacCur * q.mixdecfac
         mixsteps := (if (numState s).status = .mix then (numState s).mixsteps else q.minmixsteps) - 1
         nfev := (numState s).nfev } : Mid ι PyFloat) =
      numMid
        { f := fun i => (1 - s.mixfacCur) * s.f i - s.mixfacCur *
            (if (if P.comp i = true then decide (s.u i - P.h i - off < 0) else CCG.cgSet o s i) = true then o.hardness.at i else 0)
          t := s.t
          g := fun i => s.u i - P.h i - off
          c := fun i => if P.comp i = true then decide (s.u i - P.h i - off < 0) else CCG.cgSet o s i
          offset := off, G := 0, tau := 0, status := .mix
          mixfacCur := s.mixfacCur * o.mixdecfac
          mixsteps := (if s.status = .mix then s.mixsteps else o.minmixsteps) - 1
          nfev := s.nfev } := by
    intro off
    unfold numMid
    have hc : (fun i => if P.comp i = true then (num (s.u i - P.h i) - num off).lt 0 else CCG.cgSet o s i) =
        fun i => if P.comp i = true then decide (s.u i - P.h i - off < 0) else CCG.cgSet o s i := by
      funext i; simp only [num_sub, zero_def, lt_num]
    have hf : (fun i => (num 1 - (numState s).mixfacCur) * (numState s).f i - ((numState s).mixfacCur * hardAt q i).mask
            (if P.comp i = true then (num (s.u i - P.h i) - num off).lt 0 else CCG.cgSet o s i)) =
        nums fun i => (1 - s.mixfacCur) * s.f i - s.mixfacCur *
            (if (if P.comp i = true then decide (s.u i - P.h i - off < 0) else CCG.cgSet o s i) = true then o.hardness.at i else 0) := by
      funext i
      simp only [num_sub, zero_def, lt_num, numState, nums, hardAt_num hq, num_mul, mask_num, mul_ite, mul_zero]
    rw [hf, hc]
    simp only [numState, hq.mixdecfac, num_mul, hq.minmixsteps]
    rfl
  cases hE : o.externalForce with
  | none =>
    simp only [Option.map_none, Except.map]
    have := key s.offset
    rw [← this]
    rfl
  | some F =>
    simp only [Option.map_some]
    rw [hq.hardness]
    cases hH : o.hardness with
    | none => rfl
    | array H => rfl
    | scalar H =>
      simp only [numHardness]
      have hb := hq.bisect (fun x => (count (fun i => P.comp i && decide (s.u i - P.h i - x < 0)) : ℝ) * H - F)
        (fun x => num (count fun i => P.comp i && (num (s.u i - P.h i) - x).lt 0) * num H - num F)
        (maxOver P.comp fun i => s.u i - P.h i) (minOver P.comp fun i => s.u i - P.h i)
        (fun x => by simp only [num_sub, zero_def, lt_num, num_mul])
      rw [hb]
      cases ho : o.bisect (fun x => (count (fun i => P.comp i && decide (s.u i - P.h i - x < 0)) : ℝ) * H - F)
        (maxOver P.comp fun i => s.u i - P.h i) (minOver P.comp fun i => s.u i - P.h i) with
      | error e => rfl
      | ok off =>
        simp only [Except.map]
        have := key off
        rw [hH] at this
        rw [← this]

theorem branch_num (hP : SameProblem P Q) (hq : SameOptions o q) (s : State ι ℝ) :
    branch Q q (numState s) = (CCG.branch P o s).map numMid := by
  unfold branch CCG.branch
  rw [doCG_num hq, cgBranch_num hP hq, mixBranch_num hP hq]
  split_ifs <;> rfl

section finish
variable (m : Mid ι ℝ)

theorem tensile_num : tensile (numMid m) = CCG.tensile m := by
  funext i; simp [tensile, CCG.tensile, numMid, nums, zero_def, le_num]

theorem flowing_num (hq : SameOptions o q) : flowing q (numMid m) = CCG.flowing o m := by
  funext i; simp [flowing, CCG.flowing, numMid, nums, le_num, isSome_num hq, hardAt_num hq]

theorem newContact_num (hP : SameProblem P Q) (hq : SameOptions o q) : newContact Q q (numMid m) = CCG.newContact P o m := by
  funext i
  simp only [newContact, CCG.newContact, tensile_num, flowing_num m hq, hP.comp, zero_def]
  simp only [numMid, nums, lt_num]

theorem stepStatus_num (hP : SameProblem P Q) (hq : SameOptions o q) : stepStatus Q q (numMid m) = CCG.stepStatus P o m := by
  unfold stepStatus CCG.stepStatus
  rw [newContact_num m hP hq]
  rfl

theorem stepForce_num (hP : SameProblem P Q) (hq : SameOptions o q) : stepForce Q q (numMid m) = nums (CCG.stepForce P o m) := by
  have h1 : clip (numMid m) = nums (CCG.clip m) := by
    funext i; unfold clip CCG.clip nums; rw [tensile_num]; dsimp only; split_ifs <;> rfl
  have h2 : rescale Q q (nums (CCG.clip m)) = nums (CCG.rescale P o (CCG.clip m)) := by
    unfold rescale CCG.rescale
    rw [hq.externalForce, hP.comp, hP.nSurf]
    cases o.externalForce with
    | none => rfl
    | some F =>
      simp only [Option.map_some]
      have e : fsum P.comp (nums (CCG.clip m)) = num (sumOver P.comp (CCG.clip m)) := fsum_nums _ _
      rw [e, neg_num, ne0_num]
      by_cases h : -sumOver P.comp (CCG.clip m) ≠ 0
      · rw [if_pos (by simpa using h), if_pos h, num_div h]
        funext i; rfl
      · rw [if_neg (by simpa using h), if_neg h, neg_num, num_div hP.nSurf_ne]
        funext i
        unfold nums
        dsimp only
        split_ifs <;> rfl
  have h3 : ∀ f, truncate q (numMid m) (nums f) = nums (CCG.truncate o m f) := by
    intro f; funext i; unfold truncate CCG.truncate nums; rw [flowing_num m hq, hardAt_num hq]; dsimp only; split_ifs <;> rfl
  unfold stepForce CCG.stepForce
  rw [h1, h2, h3]
  funext i
  unfold addContact CCG.addContact
  rw [stepStatus_num m hP hq, newContact_num m hP hq, hP.comp]
  generalize CCG.truncate o m (CCG.rescale P o (CCG.clip m)) = f
  by_cases hmix : m.status = .mix
  · have : CCG.stepStatus P o m = .mix := by simp [CCG.stepStatus, hmix]
    simp [this, hmix, nums]
  · by_cases hn : CCG.newContact P o m i = true
    · have hc : P.comp i = true := by
        unfold CCG.newContact at hn; simp only [Bool.and_eq_true] at hn; exact hn.1
      have : CCG.stepStatus P o m = .sd := by
        unfold CCG.stepStatus; rw [if_neg hmix, if_pos (count_pos.2 ⟨i, hn⟩)]
      simp [this, hmix, hn, hc, nums, numMid]
    · simp only [hn, nums, numMid, mask_num, num_mul, num_add]
      split_ifs <;> simp_all

end finish

theorem finish_num (hP : SameProblem P Q) (hq : SameOptions o q) (pentol : ℝ) (s : State ι ℝ) (m : Mid ι ℝ) (hard : Bool) :
    finish Q q (num pentol) (numState s) (numMid m) hard = numOut (CCG.finish P o pentol s m hard) := by
  have hpres : maxPres q (numMid m) hard = num (CCG.maxPres o m hard) := by
    unfold maxPres CCG.maxPres
    simp only [tensile_num, flowing_num m hq, hardAt_num hq]
    have e1 : (if 0 < count (CCG.tensile m) then fmax (CCG.tensile m) (numMid m).f else 0) =
        num (if 0 < count (CCG.tensile m) then maxOver (CCG.tensile m) m.f else 0) := by
      split_ifs
      · exact fmax_nums _ _
      · rfl
    rw [e1]
    have e2 : (fmin (CCG.flowing o m) fun i => (numMid m).f i + num (o.hardness.at i)) =
        num (minOver (CCG.flowing o m) fun i => m.f i + o.hardness.at i) := fmin_nums _ _
    rw [e2, neg_num, max2_num]
    split_ifs <;> rfl
  have hpen : ∀ u, maxPen Q (numMid m) (nums u) = num (CCG.maxPen P m u) := by
    intro u
    unfold maxPen CCG.maxPen
    rw [hP.comp, hP.h]
    simp only [nums, numMid, num_add, num_sub, mask_num, fmax_nums, zero_def, max2_num]
  have hrms : (rmsPen (num m.G) (count (CCG.cgSet o s))).lt (num pentol) =
      sqrtLt (if 0 < count (CCG.cgSet o s) then m.G / (count (CCG.cgSet o s) : ℝ) else m.G) pentol := by
    unfold rmsPen
    have e : (if 0 < count (CCG.cgSet o s) then num m.G / num (count (CCG.cgSet o s)) else num m.G) =
        num (if 0 < count (CCG.cgSet o s) then m.G / (count (CCG.cgSet o s) : ℝ) else m.G) := by
      split_ifs with h
      · rw [num_div (by exact_mod_cast h.ne')]
      · rfl
    rw [e, sqrt_num, lt_num, ← Arith.sqrt_lt_iff]
  have hpad : (if 0 < count (fun i => !P.comp i) then fmax (fun i => !P.comp i) (fun i => ((numMid m).f i).abs) else 0) =
      num (if 0 < count (fun i => !P.comp i) then maxOver (fun i => !P.comp i) (fun i => pabs (m.f i)) else 0) := by
    split_ifs
    · exact fmax_nums _ _
    · rfl
  have hdu : ∀ u : ι → ℝ, (fmax (fun _ => true) fun i => (nums u i - (numState s).u i).abs) = num (maxOver (fun _ => true) fun i => pabs (u i - s.u i)) := fun u => fmax_nums _ _
  have hcf : ∀ x, convForce q (numState s) (num x) = CCG.convForce o s x := by
    intro x
    unfold convForce CCG.convForce
    rw [hq.externalForce, hq.thermotol]
    cases o.externalForce with
    | some F => exact relLt_num _ _ _
    | none =>
      simp only [numState]
      cases s.lastTotalForce with
      | some l => exact relLt_num _ _ _
      | none => rfl
  have hch : ∀ x, convHeight q (numState s) (num x) = CCG.convHeight o s x := by
    intro x
    unfold convHeight CCG.convHeight
    rw [hq.externalForce, hq.thermotol]
    cases o.externalForce with
    | none => rfl
    | some F =>
      simp only [numState]
      cases s.lastMaxHeight with
      | some l => exact relLt_num _ _ _
      | none => rfl
  have hsum : fsum P.comp (nums (CCG.stepForce P o m)) = num (sumOver P.comp (CCG.stepForce P o m)) := fsum_nums _ _
  have hmaxh : fmax P.comp (nums P.h) = num (maxOver P.comp P.h) := fmax_nums _ _
  have hoff : (numMid m).offset = num m.offset := rfl
  have hG : (numMid m).G = num m.G := rfl
  unfold finish CCG.finish
  simp only [stepForce_num m hP hq, stepStatus_num m hP hq, newContact_num m hP hq, hpres, hP.disp, hpen, hP.comp, hP.h, cgSet_num hq, contact_num, hG, hrms, hoff,
    hpad, hdu, hsum, hmaxh, neg_num, num_add, hcf, hch, hq.forcetol, lt_num]
  rfl

theorem step_num (hP : SameProblem P Q) (hq : SameOptions o q) (pentol : ℝ) (s : State ι ℝ) :
    step Q q (num pentol) (numState s) = (CCG.step P o pentol s).map numOut := by
  unfold step CCG.step
  rw [branch_num hP hq, truth_num hq]
  cases CCG.branch P o s with
  | error e => rfl
  | ok m =>
    simp only [Except.map]
    cases o.hardness.truth with
    | error e => rfl
    | ok hard => simp only [finish_num hP hq]

theorem mkResult_num (hP : SameProblem P Q) (hq : SameOptions o q) (n : ℕ) (b : Bool) (w : StepOut ι ℝ) :
    mkResult Q q n b (numOut w) = numResult (CCG.mkResult P o n b w) := by
  unfold mkResult CCG.mkResult numResult
  have e : (fsum P.slice fun i => (numOut w).next.f i * (numOut w).next.u i) = num (sumOver P.slice fun i => w.next.f i * w.next.u i) := fsum_nums _ _
  have ej : (fun i => if P.slice i then -((numOut w).next.f i) else 0) = nums fun i => if P.slice i then -(w.next.f i) else 0 := by
    funext i; unfold nums; dsimp only; split_ifs <;> rfl
  have eg : ∀ i, ((numOut w).g i).lt 0 = decide (w.g i < 0) := fun i => by simp [numOut, nums, zero_def, lt_num]
  simp only [hP.slice, hP.comp, e, ej, eg, isSome_num hq, neg_num, num_div (two_ne_zero : (2 : ℝ) ≠ 0)]
  rfl

theorem not_nanFound (w : StepOut ι ℝ) : ¬ nanFound (numOut w) := by
  unfold nanFound
  push Not
  refine ⟨isNum_num _, ?_⟩
  unfold rmsPen
  have : ∃ x, (if 0 < (numOut w).Acg then (numOut w).G / num ((numOut w).Acg) else (numOut w).G) = num x := by
    split_ifs with h
    · exact ⟨_, num_div (by exact_mod_cast h.ne')⟩
    · exact ⟨_, rfl⟩
  obtain ⟨x, hx⟩ := this
  rw [hx]
  exact isNum_num _

theorem loop_num (hP : SameProblem P Q) (hq : SameOptions o q) (pentol : ℝ) : ∀ fuel it s cb prev,
    loop Q q (num pentol) fuel it (numState s) (prev.map numOut) = (CCG.loop P o pentol fuel it s cb prev).map fun x => numResult x.1 := by
  intro fuel
  induction fuel with
  | zero =>
    intro it s cb prev
    cases prev with
    | none => rfl
    | some w => simp only [Option.map_some, loop, CCG.loop, Except.map, mkResult_num hP hq]
  | succ n ih =>
    intro it s cb prev
    rw [loop, CCG.loop, step_num hP hq]
    cases CCG.step P o pentol s with
    | error e => rfl
    | ok w =>
      simp only [Except.map]
      have e : (numOut w).converged = w.converged := rfl
      rw [e, if_neg (not_nanFound w)]
      by_cases hc : w.converged = true
      · rw [if_pos hc, if_pos hc]
        simp only [mkResult_num hP hq]
      · rw [if_neg hc, if_neg hc]
        exact ih (it + 1) w.next _ (some w)

/-- **C210, calculations without `nan`.** If no argument is `nan` and the substrate turns numbers into numbers, the calculation is that of C32-C47: same exceptions, same result. -/
theorem C210_without_nan (hP : SameProblem P Q) (hq : SameOptions o q) :
    solve Q q = (CCG.solve P o).map numResult := by
  have hp : pentolOf Q q = (CCG.pentolOf P o).map num := by
    unfold pentolOf CCG.pentolOf
    rw [hq.pentol, hP.rmsHeight, hP.meanGrid, hq.offset, hP.comp, hP.h, hP.nSurf]
    cases o.pentol with
    | some p => rfl
    | none =>
      have h10 : (10 : ℝ) * P.meanGrid ≠ 0 := mul_ne_zero (by norm_num) hP.meanGrid_ne
      have es : fsum P.comp (nums P.h) = num (sumOver P.comp P.h) := fsum_nums _ _
      simp only [Option.map_none, num_mul, num_div h10, ne0_num, es, num_div hP.nSurf_ne]
      by_cases h : P.rmsHeight / (10 * P.meanGrid) ≠ 0
      · rw [if_pos (by simpa using h), if_pos h]; rfl
      · rw [if_neg (by simpa using h), if_neg h]
        cases o.offset with
        | none => rfl
        | some off =>
          simp only [Option.map_some, num_add, num_div (show (1000 : ℝ) ≠ 0 by norm_num), ne0_num]
          by_cases h : (off + sumOver P.comp P.h / P.nSurf) / 1000 ≠ 0
          · rw [if_pos (by simpa using h), if_pos h]; rfl
          · rw [if_neg (by simpa using h), if_neg h]; rfl
  have hu : initU Q q = nums (CCG.initU P o) := by
    funext i
    unfold initU CCG.initU nums
    rw [hP.comp, hP.h, hq.offset, hq.initialDisplacements]
    have e1 : (o.initialDisplacements.map nums).getD (fun _ => 0) = nums (o.initialDisplacements.getD fun _ => 0) := by
      cases o.initialDisplacements <;> rfl
    have e2 : (o.offset.map num).getD 0 = num (o.offset.getD 0) := by cases o.offset <;> rfl
    simp only [e1, e2, nums, num_add, lt_num]
    by_cases hc : P.comp i = true
    · simp only [hc, if_true, decide_eq_true_eq]
      split_ifs <;> rfl
    · simp only [hc]; rfl
  have hi : initState Q q = numState (CCG.initState P o) := by
    unfold initState CCG.initState numState
    rw [hu, hP.force, hq.initialForces, hP.comp, hq.mixfac, hq.offset]
    have e2 : (o.offset.map num).getD 0 = num (o.offset.getD 0) := by cases o.offset <;> rfl
    rw [e2]
    cases o.initialForces with
    | none =>
      simp only [Option.map_none]
      have : (fun i => if P.comp i = true then nums (P.force (CCG.initU P o)) i else 0) = nums fun i => if P.comp i = true then P.force (CCG.initU P o) i else 0 := by
        funext i; unfold nums; dsimp only; split_ifs <;> rfl
      rw [this]
      rfl
    | some f0 =>
      simp only [Option.map_some, hP.disp]
      have : (fun i => if P.comp i = true then nums f0 i else 0) = nums fun i => if P.comp i = true then f0 i else 0 := by
        funext i; unfold nums; dsimp only; split_ifs <;> rfl
      rw [this]
      rfl
  unfold solve CCG.solve CCG.solveCb
  rw [hp, hi, hq.maxiter]
  cases CCG.pentolOf P o with
  | error e => rfl
  | ok pentol =>
    simp only [Except.map]
    have := loop_num hP hq pentol o.maxiter 0 (CCG.initState P o) [] none
    rw [Option.map_none] at this
    rw [this]
    cases CCG.loop P o pentol o.maxiter 0 (CCG.initState P o) [] none <;> rfl

end CM.CCG.Nan
