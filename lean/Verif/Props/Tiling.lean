import Verif.Props.CCG7
/-!
# C185 the solver on several copies of a surface

`e` maps the grid of the large problem to the grid of the small one; every point of the small grid has `n` copies.
-/
set_option linter.unusedSectionVars false
namespace CM.CCG
open Finset CM.Spec

variable {ι κ K : Type} [Fintype ι] [Fintype κ] [Field K] [LinearOrder K] [IsStrictOrderedRing K]

/-- Every point has `n` copies. -/
structure Copies [DecidableEq ι] (e : κ → ι) (n : ℕ) : Prop where
  pos : 0 < n
  card : ∀ i, #{k | e k = i} = n

/-- `P'` is `P` on `n` copies of the grid: fields that are the same on every copy respond as on the small grid. -/
structure Tiled (e : κ → ι) (n : ℕ) (P : Problem ι K) (P' : Problem κ K) : Prop where
  disp : ∀ f, P'.disp (fun i => f (e i)) = fun i => P.disp f (e i)
  force : ∀ u, P'.force (fun i => u (e i)) = fun i => P.force u (e i)
  comp : ∀ i, P'.comp i = P.comp (e i)
  slice : ∀ i, P'.slice i = P.slice (e i)
  h : ∀ i, P'.h i = P.h (e i)
  nSurf : P'.nSurf = n * P.nSurf

/-- The hardness of the copies. -/
def Hardness.tiled (e : κ → ι) : Hardness ι K → Hardness κ K
  | .none => .none
  | .scalar H => .scalar H
  | .array H => .array fun i => H (e i)

/-- The same options on the copies; the total load is `n` times the load on one copy. -/
structure TiledOpt (e : κ → ι) (n : ℕ) (o : Options ι K) (o' : Options κ K) : Prop where
  hardness : o'.hardness = o.hardness.tiled e
  noArray : ∀ H, o.hardness ≠ .array H
  externalForce : o'.externalForce = o.externalForce.map ((n : K) * ·)
  offset : o'.offset = o.offset
  initialDisplacements : o'.initialDisplacements = o.initialDisplacements.map fun u i => u (e i)
  initialForces : o'.initialForces = o.initialForces.map fun f i => f (e i)
  pentol : o'.pentol = o.pentol
  forcetol : o'.forcetol = o.forcetol
  thermotol : o'.thermotol = o.thermotol
  mixfac : o'.mixfac = o.mixfac
  mixdecfac : o'.mixdecfac = o.mixdecfac
  minmixsteps : o'.minmixsteps = o.minmixsteps
  maxiter : o'.maxiter = o.maxiter
  bisect : ∀ f a b, o'.bisect (fun x => n * f x) a b = o.bisect f a b

section basics
variable [DecidableEq ι] {e : κ → ι} {n : ℕ}

lemma Copies.surj (he : Copies e n) (i : ι) : ∃ k, e k = i := by
  have : 0 < #{k | e k = i} := by rw [he.card]; exact he.pos
  obtain ⟨k, hk⟩ := card_pos.1 this
  exact ⟨k, by simpa using hk⟩

lemma Copies.sum (he : Copies e n) (a : ι → K) : ∑ k, a (e k) = n * ∑ i, a i := by
  rw [← Finset.sum_fiberwise_of_maps_to (t := univ) (g := e) (fun _ _ => mem_univ _), Finset.mul_sum]
  refine sum_congr rfl fun i _ => ?_
  rw [sum_congr rfl (g := fun _ => a i) (fun k hk => by rw [(mem_filter.1 hk).2]), sum_const, he.card, nsmul_eq_mul]

lemma Copies.sumOver (he : Copies e n) (p : ι → Bool) (a : ι → K) : sumOver (fun i => p (e i)) (fun i => a (e i)) = n * CCG.sumOver p a := by
  unfold CCG.sumOver
  exact he.sum fun i => if p i then a i else 0

lemma Copies.count (he : Copies e n) (p : ι → Bool) : count (fun i => p (e i)) = n * CCG.count p := by
  have := he.sumOver (K := ℚ) p fun _ => 1
  unfold CCG.sumOver at this
  simp only [sum_boole] at this
  unfold CCG.count
  exact_mod_cast this

lemma Copies.count_pos (he : Copies e n) (p : ι → Bool) : 0 < CCG.count (fun i => p (e i)) ↔ 0 < CCG.count p := by
  rw [he.count]
  exact ⟨fun h => Nat.pos_of_mul_pos_left h, fun h => Nat.mul_pos he.pos h⟩

lemma Copies.maxOver (he : Copies e n) (p : ι → Bool) (a : ι → K) : maxOver (fun i => p (e i)) (fun i => a (e i)) = CCG.maxOver p a := by
  unfold CCG.maxOver
  by_cases h : (univ.filter fun i => p i = true).Nonempty
  · have h' : (univ.filter fun i => p (e i) = true).Nonempty := by
      obtain ⟨i, hi⟩ := h
      obtain ⟨k, rfl⟩ := he.surj i
      exact ⟨k, by simpa using hi⟩
    rw [dif_pos h, dif_pos h']
    apply le_antisymm
    · apply Finset.sup'_le
      intro i hi
      exact Finset.le_sup' a (by simpa using hi)
    · obtain ⟨j, hj, hj'⟩ := Finset.exists_mem_eq_sup' h a
      obtain ⟨k, rfl⟩ := he.surj j
      rw [hj']
      exact Finset.le_sup' (fun i => a (e i)) (by simpa using hj)
  · have h' : ¬ (univ.filter fun i => p (e i) = true).Nonempty := by
      intro ⟨i, hi⟩
      exact h ⟨e i, by simpa using hi⟩
    rw [dif_neg h, dif_neg h']

lemma Copies.minOver (he : Copies e n) (p : ι → Bool) (a : ι → K) : minOver (fun i => p (e i)) (fun i => a (e i)) = CCG.minOver p a := by
  unfold CCG.minOver
  by_cases h : (univ.filter fun i => p i = true).Nonempty
  · have h' : (univ.filter fun i => p (e i) = true).Nonempty := by
      obtain ⟨i, hi⟩ := h
      obtain ⟨k, rfl⟩ := he.surj i
      exact ⟨k, by simpa using hi⟩
    rw [dif_pos h, dif_pos h']
    apply le_antisymm
    · obtain ⟨j, hj, hj'⟩ := Finset.exists_mem_eq_inf' h a
      obtain ⟨k, rfl⟩ := he.surj j
      rw [hj']
      exact Finset.inf'_le (fun i => a (e i)) (by simpa using hj)
    · apply Finset.le_inf'
      intro i hi
      exact Finset.inf'_le a (by simpa using hi)
  · have h' : ¬ (univ.filter fun i => p (e i) = true).Nonempty := by
      intro ⟨i, hi⟩
      exact h ⟨e i, by simpa using hi⟩
    rw [dif_neg h, dif_neg h']

end basics

lemma tiled_at (e : κ → ι) (H : Hardness ι K) (i : κ) : (H.tiled e).at i = H.at (e i) := by
  cases H <;> rfl

lemma tiled_isSome (e : κ → ι) (H : Hardness ι K) : (H.tiled e).isSome = H.isSome := by
  cases H <;> rfl

/-- States of runs on the copies.  `G_old` is only comparable once a direction is conjugated to it. -/
structure TiledState (e : κ → ι) (n : ℕ) (s : State ι K) (s' : State κ K) : Prop where
  f : s'.f = fun i => s.f (e i)
  u : s'.u = fun i => s.u (e i)
  t : s'.t = fun i => s.t (e i)
  delta : s'.delta = s.delta
  status : s'.status = s.status
  Gold : s.delta = true → s'.Gold = n * s.Gold
  mixfacCur : s'.mixfacCur = s.mixfacCur
  mixsteps : s'.mixsteps = s.mixsteps
  lastMaxHeight : s'.lastMaxHeight = s.lastMaxHeight
  lastTotalForce : s'.lastTotalForce = s.lastTotalForce.map ((n : K) * ·)
  offset : s'.offset = s.offset
  nfev : s'.nfev = s.nfev

/-- A `Mid` on the copies. -/
def Mid.tiled (e : κ → ι) (n : ℕ) (m : Mid ι K) : Mid κ K where
  f i := m.f (e i)
  t i := m.t (e i)
  g i := m.g (e i)
  c i := m.c (e i)
  offset := m.offset
  G := n * m.G
  tau := m.tau
  status := m.status
  mixfacCur := m.mixfacCur
  mixsteps := m.mixsteps
  nfev := m.nfev

/-- A step on the copies. -/
structure TiledStep (e : κ → ι) (n : ℕ) (w : StepOut ι K) (w' : StepOut κ K) : Prop where
  next : TiledState e n w.next w'.next
  active : w'.c = fun i => w.c (e i)
  g : w'.g = fun i => w.g (e i)
  tau : w'.tau = w.tau
  maxPen : w'.maxPen = w.maxPen
  maxPres : w'.maxPres = w.maxPres
  converged : w'.converged = w.converged

variable [DecidableEq ι] {e : κ → ι} {n : ℕ} {P : Problem ι K} {P' : Problem κ K} {o : Options ι K} {o' : Options κ K}
  {s : State ι K} {s' : State κ K}

lemma tiled_truth (ho : TiledOpt e n o o') : o'.hardness.truth = o.hardness.truth := by
  rw [ho.hardness]
  cases h : o.hardness with
  | none => rfl
  | scalar H => rfl
  | array H => exact absurd h (ho.noArray H)

lemma cgSet_tiled (ho : TiledOpt e n o o') (hs : TiledState e n s s') : cgSet o' s' = fun i => cgSet o s (e i) := by
  funext i
  unfold cgSet
  rw [ho.hardness, hs.f, tiled_isSome, tiled_at]

lemma contact_tiled (hs : TiledState e n s s') : contact s' = fun i => contact s (e i) := by
  funext i
  unfold contact
  rw [hs.f]

lemma doCG_tiled (he : Copies e n) (ho : TiledOpt e n o o') (hs : TiledState e n s s') : doCG o' s' = doCG o s := by
  unfold doCG
  rw [cgSet_tiled ho hs, contact_tiled hs, ho.hardness, tiled_isSome, hs.mixsteps]
  have h1 : (count (fun i => cgSet o s (e i)) : K) / (count (fun i => contact s (e i)) : K) = (count (cgSet o s) : K) / (count (contact s) : K) := by
    rw [he.count, he.count]
    push_cast
    exact mul_div_mul_left _ _ (by exact_mod_cast he.pos.ne')
  simp only [h1, he.count_pos]

lemma cgOffset_tiled (he : Copies e n) (hP : Tiled e n P P') (ho : TiledOpt e n o o') (hs : TiledState e n s s') :
    cgOffset P' o' s' = cgOffset P o s := by
  unfold cgOffset
  rw [ho.externalForce]
  cases o.externalForce with
  | none => exact hs.offset
  | some F =>
    simp only [Option.map_some]
    rw [cgSet_tiled ho hs]
    simp only [he.count_pos]
    have : sumOver (fun i => cgSet o s (e i) && P'.comp i) (fun i => s'.u i - P'.h i)
        = n * sumOver (fun i => cgSet o s i && P.comp i) (fun i => s.u i - P.h i) := by
      rw [← he.sumOver]
      congr 1
      · funext i; rw [hP.comp]
      · funext i; rw [hs.u, hP.h]
    rw [this, he.count]
    push_cast
    rw [mul_div_mul_left _ _ (by exact_mod_cast he.pos.ne' : (n : K) ≠ 0)]

lemma cgDir_tiled (he : Copies e n) (hP : Tiled e n P P') (hs : TiledState e n s s') (a : ι → Bool) (g : ι → K) (G : K) :
    cgDir P' s' (fun i => a (e i)) (fun i => g (e i)) (n * G) = fun i => cgDir P s a g G (e i) := by
  have hn : (0 : K) < n := by exact_mod_cast he.pos
  funext i
  unfold cgDir
  rw [hP.comp, hs.delta, hs.t]
  by_cases hd : s.delta = true
  · rw [hd, hs.Gold hd]
    have h1 : (0 < n * s.Gold) ↔ 0 < s.Gold := mul_pos_iff_of_pos_left hn
    have h2 : n * G / (n * s.Gold) = G / s.Gold := mul_div_mul_left _ _ hn.ne'
    simp only [h1, h2, Bool.true_and]
  · simp only [Bool.not_eq_true] at hd
    rw [hd]
    simp only [Bool.false_and, Bool.false_eq_true, if_false]

lemma cgBranch_tiled (he : Copies e n) (hP : Tiled e n P P') (ho : TiledOpt e n o o')
    (hs : TiledState e n s s') : cgBranch P' o' s' = (cgBranch P o s).tiled e n := by
  have hn : (0 : K) < n := by exact_mod_cast he.pos
  have hset := cgSet_tiled ho hs
  have hoff := cgOffset_tiled he hP ho hs
  have hg : (fun i => s'.u i - P'.h i - cgOffset P o s) = fun i => s.u (e i) - P.h (e i) - cgOffset P o s := by
    funext i; rw [hs.u, hP.h]
  have hsum : ∀ a : ι → K, sumOver (fun i => cgSet o s (e i) && P'.comp i) (fun i => a (e i)) = n * sumOver (fun i => cgSet o s i && P.comp i) a := by
    intro a
    rw [← he.sumOver]
    congr 1
    funext i; rw [hP.comp]
  have hG := hsum fun i => (s.u i - P.h i - cgOffset P o s) * (s.u i - P.h i - cgOffset P o s)
  unfold cgBranch Mid.tiled
  dsimp only
  rw [hset, hoff]
  simp only [congrFun hg]
  rw [hG, cgDir_tiled he hP hs (cgSet o s) (fun i => s.u i - P.h i - cgOffset P o s), hP.disp]
  obtain ⟨t, ht⟩ : ∃ t, t = cgDir P s (cgSet o s) (fun i => s.u i - P.h i - cgOffset P o s)
    (sumOver (fun i => cgSet o s i && P.comp i) fun i => (s.u i - P.h i - cgOffset P o s) * (s.u i - P.h i - cgOffset P o s)) := ⟨_, rfl⟩
  rw [← ht]
  have hx := he.sumOver (cgSet o s) (fun i => P.disp t i * t i)
  have hgt := hsum fun i => (s.u i - P.h i - cgOffset P o s) * t i
  rw [hx, hgt, ← mul_neg]
  simp only [he.count_pos]
  obtain ⟨X, hX⟩ : ∃ X, X = -(sumOver (cgSet o s) (fun i => P.disp t i * t i)) := ⟨_, rfl⟩
  rw [← hX]
  have hpos : (0 < n * X) ↔ 0 < X := mul_pos_iff_of_pos_left hn
  simp only [hpos, mul_div_mul_left _ _ hn.ne']
  congr 1
  · funext i
    rw [hs.f]
  · split_ifs <;> simp
  · rw [hs.status]
  · exact ho.mixfac
  · exact hs.mixsteps
  · rw [hs.nfev]

lemma mixBranch_tiled (he : Copies e n) (hP : Tiled e n P P') (ho : TiledOpt e n o o')
    (hs : TiledState e n s s') : mixBranch P' o' s' = (mixBranch P o s).map (Mid.tiled e n) := by
  have hset := cgSet_tiled ho hs
  have hg0 : (fun i => s'.u i - P'.h i) = fun i => s.u (e i) - P.h (e i) := by
    funext i; rw [hs.u, hP.h]
  have hcomp : P'.comp = fun i => P.comp (e i) := funext hP.comp
  have hoff : mixOff P' o' s' (fun i => s.u (e i) - P.h (e i)) = mixOff P o s fun i => s.u i - P.h i := by
    unfold mixOff
    rw [ho.externalForce]
    cases o.externalForce with
    | none => simp [hs.offset]
    | some F =>
      rw [ho.hardness]
      cases o.hardness with
      | none => rfl
      | array H => rfl
      | scalar H =>
        simp only [Option.map_some, Hardness.tiled]
        rw [← ho.bisect, hcomp, he.maxOver P.comp fun i => s.u i - P.h i, he.minOver P.comp fun i => s.u i - P.h i]
        congr 1
        funext x
        rw [he.count (fun i => P.comp i && decide (s.u i - P.h i - x < 0))]
        push_cast
        ring
  rw [mixBranch_eq, mixBranch_eq, hg0, hoff]
  generalize (mixOff P o s fun i => s.u i - P.h i) = offE
  cases offE with
  | error e => rfl
  | ok off =>
    simp only [Except.map, Mid.tiled, mixMid]
    congr 1
    congr 1
    · funext i
      rw [hs.f, hs.mixfacCur, hP.comp, hset, ho.hardness, tiled_at]
    · exact hs.t
    · funext i
      rw [hP.comp, hset]
    · simp
    · rw [hs.mixfacCur, ho.mixdecfac]
    · rw [hs.status, hs.mixsteps, ho.minmixsteps]
    · exact hs.nfev

lemma branch_tiled (he : Copies e n) (hP : Tiled e n P P') (ho : TiledOpt e n o o')
    (hs : TiledState e n s s') : branch P' o' s' = (branch P o s).map (Mid.tiled e n) := by
  unfold branch
  rw [doCG_tiled he ho hs]
  split_ifs
  · rw [cgBranch_tiled he hP ho hs]; rfl
  · exact mixBranch_tiled he hP ho hs

/-- Without points in contact there is no residual. -/
lemma branch_residual {m : Mid ι K} (h : branch P o s = .ok m) (h0 : count (cgSet o s) = 0) : m.G = 0 := by
  unfold branch at h
  split_ifs at h
  · cases h
    unfold cgBranch
    dsimp only
    rw [if_neg (by rw [h0]; simp)]
    unfold sumOver
    refine sum_eq_zero fun i _ => ?_
    unfold count at h0
    rw [card_eq_zero, filter_eq_empty_iff] at h0
    have := h0 (mem_univ i)
    simp only [Bool.not_eq_true] at this
    simp [this]
  · rw [mixBranch_eq] at h
    cases hm : mixOff P o s fun i => s.u i - P.h i with
    | error e => rw [hm] at h; cases h
    | ok off =>
      rw [hm] at h
      cases h
      rfl

section finish
variable {m : Mid ι K}

lemma tensile_tiled : tensile (m.tiled e n) = fun i => tensile m (e i) := rfl

lemma flowing_tiled (ho : TiledOpt e n o o') : flowing o' (m.tiled e n) = fun i => flowing o m (e i) := by
  funext i
  simp only [flowing, Mid.tiled, ho.hardness, tiled_isSome, tiled_at]

lemma newContact_tiled (hP : Tiled e n P P') (ho : TiledOpt e n o o') : newContact P' o' (m.tiled e n) = fun i => newContact P o m (e i) := by
  funext i
  unfold newContact
  rw [tensile_tiled, flowing_tiled ho, hP.comp]
  rfl

lemma rescale_tiled (he : Copies e n) (hP : Tiled e n P P') (ho : TiledOpt e n o o') (f : ι → K) :
    rescale P' o' (fun i => f (e i)) = fun i => rescale P o f (e i) := by
  have hn : (0 : K) < n := by exact_mod_cast he.pos
  unfold rescale
  rw [ho.externalForce]
  cases o.externalForce with
  | none => rfl
  | some F =>
    have hcomp : P'.comp = fun i => P.comp (e i) := funext hP.comp
    simp only [Option.map_some]
    rw [hcomp, he.sumOver P.comp f, ← mul_neg, hP.nSurf]
    by_cases h : -(sumOver P.comp f) = 0
    · simp only [h, mul_zero, ne_eq, not_true_eq_false, if_false]
      funext i
      rw [← mul_neg, mul_div_mul_left _ _ hn.ne']
    · have h' : n * -(sumOver P.comp f) ≠ 0 := mul_ne_zero hn.ne' h
      simp only [ne_eq, h, h', not_false_eq_true, if_true]
      funext i
      rw [mul_div_mul_left _ _ hn.ne']

lemma stepForce_tiled (he : Copies e n) (hP : Tiled e n P P') (ho : TiledOpt e n o o') :
    stepForce P' o' (m.tiled e n) = fun i => stepForce P o m (e i) := by
  unfold stepForce
  rw [newContact_tiled hP ho, show clip (m.tiled e n) = fun i => clip m (e i) from rfl, rescale_tiled he hP ho]
  have ht : truncate o' (m.tiled e n) (fun i => rescale P o (clip m) (e i)) = fun i => truncate o m (rescale P o (clip m)) (e i) := by
    funext i
    unfold truncate
    rw [flowing_tiled ho, ho.hardness, tiled_at]
  rw [ht]
  rfl

lemma stepStatus_tiled (he : Copies e n) (hP : Tiled e n P P') (ho : TiledOpt e n o o') :
    stepStatus P' o' (m.tiled e n) = stepStatus P o m := by
  unfold stepStatus
  rw [newContact_tiled hP ho]
  simp only [he.count_pos]
  rfl

lemma maxPres_tiled (he : Copies e n) (ho : TiledOpt e n o o') (hard : Bool) : maxPres o' (m.tiled e n) hard = maxPres o m hard := by
  unfold maxPres
  rw [flowing_tiled ho, tensile_tiled]
  simp only [he.count_pos]
  have h1 : maxOver (fun i => tensile m (e i)) (m.tiled e n).f = maxOver (tensile m) m.f := he.maxOver _ _
  have h2 : minOver (fun i => flowing o m (e i)) (fun i => (m.tiled e n).f i + o'.hardness.at i)
      = minOver (flowing o m) fun i => m.f i + o.hardness.at i := by
    rw [← he.minOver]
    congr 1
    funext i
    rw [ho.hardness, tiled_at]; rfl
  rw [h1, h2]

lemma maxPen_tiled (he : Copies e n) (hP : Tiled e n P P') (u : ι → K) :
    maxPen P' (m.tiled e n) (fun i => u (e i)) = maxPen P m u := by
  unfold maxPen
  rw [← he.maxOver P.comp]
  congr 2
  · exact funext hP.comp
  · funext i
    simp only [Mid.tiled, hP.h]

lemma convForce_tiled (he : Copies e n) (ho : TiledOpt e n o o') (hs : TiledState e n s s') (x : K) :
    convForce o' s' (n * x) = convForce o s x := by
  have hn : (0 : K) < n := by exact_mod_cast he.pos
  unfold convForce
  rw [ho.externalForce, hs.lastTotalForce, ho.thermotol]
  cases o.externalForce <;> cases s.lastTotalForce <;> simp [relLt_similar hn]

lemma convHeight_tiled (ho : TiledOpt e n o o') (hs : TiledState e n s s') (x : K) : convHeight o' s' x = convHeight o s x := by
  unfold convHeight
  rw [ho.externalForce, hs.lastMaxHeight, ho.thermotol]
  cases o.externalForce <;> cases s.lastMaxHeight <;> simp

lemma finish_tiled (he : Copies e n) (hP : Tiled e n P P') (ho : TiledOpt e n o o')
    (hs : TiledState e n s s') (h0 : count (cgSet o s) = 0 → m.G = 0) (pentol : K) (hard : Bool) :
    TiledStep e n (finish P o pentol s m hard) (finish P' o' pentol s' (m.tiled e n) hard) := by
  have hn : (0 : K) < n := by exact_mod_cast he.pos
  have hu : P'.disp (stepForce P' o' (m.tiled e n)) = fun i => P.disp (stepForce P o m) (e i) := by
    rw [stepForce_tiled he hP ho]; exact hP.disp _
  have hdu : maxOver (fun _ => true) (fun i => pabs (P'.disp (stepForce P' o' (m.tiled e n)) i - s'.u i))
      = maxOver (fun _ => true) fun i => pabs (P.disp (stepForce P o m) i - s.u i) := by
    rw [← he.maxOver (fun _ => true), hu, hs.u]
  have hpad : (if 0 < count (fun i => !P'.comp i) then maxOver (fun i => !P'.comp i) (fun i => pabs ((m.tiled e n).f i)) else 0)
      = (if 0 < count (fun i => !P.comp i) then maxOver (fun i => !P.comp i) (fun i => pabs (m.f i)) else 0) := by
    have h1 : (fun i => !P'.comp i) = fun i => (fun j => !P.comp j) (e i) := by funext i; rw [hP.comp]
    rw [h1]
    simp only [he.count_pos fun j => !P.comp j]
    have h2 : maxOver (fun i => (fun j => !P.comp j) (e i)) (fun i => pabs ((m.tiled e n).f i))
        = maxOver (fun i => !P.comp i) (fun i => pabs (m.f i)) := by
      rw [← he.maxOver]; rfl
    rw [h2]
  have hcomp : P'.comp = fun i => P.comp (e i) := funext hP.comp
  have htot : -(sumOver P'.comp (stepForce P' o' (m.tiled e n))) = n * -(sumOver P.comp (stepForce P o m)) := by
    rw [stepForce_tiled he hP ho, hcomp, he.sumOver P.comp, mul_neg]
  have hmaxH : maxOver P'.comp P'.h + (m.tiled e n).offset = maxOver P.comp P.h + m.offset := by
    rw [hcomp, show P'.h = fun i => P.h (e i) from funext hP.h, he.maxOver P.comp P.h]; rfl
  have hrms : sqrtLt (if 0 < count (cgSet o' s') then (m.tiled e n).G / (count (cgSet o' s') : K) else (m.tiled e n).G) pentol
      = sqrtLt (if 0 < count (cgSet o s) then m.G / (count (cgSet o s) : K) else m.G) pentol := by
    rw [cgSet_tiled ho hs]
    simp only [he.count_pos]
    rw [he.count]
    by_cases h : 0 < count (cgSet o s)
    · rw [if_pos h, if_pos h]
      simp only [Mid.tiled]
      push_cast
      rw [mul_div_mul_left _ _ hn.ne']
    · rw [if_neg h, if_neg h]
      simp only [Mid.tiled]
      rw [h0 (by omega), mul_zero]
  have hconv : (finish P' o' pentol s' (m.tiled e n) hard).converged = (finish P o pentol s m hard).converged := by
    unfold finish
    dsimp only
    rw [hdu, hpad, htot, hmaxH, hrms, maxPres_tiled he ho, hu, maxPen_tiled he hP, stepStatus_tiled he hP ho,
      convForce_tiled he ho hs, convHeight_tiled ho hs, ho.forcetol]
  refine ⟨?_, rfl, rfl, rfl, ?_, ?_, hconv⟩
  · refine ⟨stepForce_tiled he hP ho, hu, rfl, ?_, ?_, fun _ => rfl, rfl, rfl, ?_, ?_, rfl, rfl⟩
    · unfold finish; dsimp only; rw [stepStatus_tiled he hP ho]
    · exact stepStatus_tiled he hP ho
    · exact congrArg some hmaxH
    · exact congrArg some htot
  · have : (finish P' o' pentol s' (m.tiled e n) hard).maxPen = maxPen P' (m.tiled e n) (P'.disp (stepForce P' o' (m.tiled e n))) := rfl
    rw [this, hu]; exact maxPen_tiled he hP _
  · exact maxPres_tiled he ho hard

end finish

lemma step_tiled (he : Copies e n) (hP : Tiled e n P P') (ho : TiledOpt e n o o') (hs : TiledState e n s s') (pentol : K) :
    (∃ x, step P o pentol s = .error x ∧ step P' o' pentol s' = .error x) ∨
    ∃ w w', step P o pentol s = .ok w ∧ step P' o' pentol s' = .ok w' ∧ TiledStep e n w w' := by
  unfold step
  rw [branch_tiled he hP ho hs, tiled_truth ho]
  cases hb : branch P o s with
  | error x => exact Or.inl ⟨x, rfl, rfl⟩
  | ok m =>
    cases o.hardness.truth with
    | error x => exact Or.inl ⟨x, rfl, rfl⟩
    | ok hard => exact Or.inr ⟨_, _, rfl, rfl, finish_tiled he hP ho hs (branch_residual hb) pentol hard⟩

/-- A result on the copies; the energy is that of all copies. -/
def Result.tiled (e : κ → ι) (n : ℕ) (r : Result ι K) : Result κ K where
  x i := r.x (e i)
  jac i := r.jac (e i)
  activeSet i := r.activeSet (e i)
  plastic := r.plastic.map fun p i => p (e i)
  fun_ := n * r.fun_
  offset := r.offset
  success := r.success
  nit := r.nit
  nfev := r.nfev
  maxPen := r.maxPen
  maxPres := r.maxPres
  status := r.status
  tau := r.tau

lemma mkResult_tiled (he : Copies e n) (hP : Tiled e n P P') (ho : TiledOpt e n o o') {w : StepOut ι K} {w' : StepOut κ K}
    (hw : TiledStep e n w w') (nit : ℕ) (ok : Bool) : mkResult P' o' nit ok w' = (mkResult P o nit ok w).tiled e n := by
  unfold mkResult Result.tiled
  congr 1
  · exact hw.next.u
  · funext i
    rw [hP.slice, hw.next.f]
  · rw [hw.next.status, hw.active, hw.g]
    dsimp only
    split_ifs
    · funext i; simp only [hP.comp]
    · rfl
  · rw [ho.hardness, tiled_isSome, hw.g]
    dsimp only
    split_ifs
    · simp only [Option.map_some, hP.comp, hP.slice]
    · rfl
  · have : sumOver P'.slice (fun i => w'.next.f i * w'.next.u i) = n * sumOver P.slice fun i => w.next.f i * w.next.u i := by
      rw [← he.sumOver]
      congr 1
      · exact funext hP.slice
      · funext i; rw [hw.next.f, hw.next.u]
    rw [this]; dsimp only; ring
  · exact hw.next.offset
  · exact hw.next.nfev
  · exact hw.maxPen
  · exact hw.maxPres
  · exact hw.next.status
  · exact hw.tau

/-- What a run on the copies hands to the user: the result and the forces the callback has seen. -/
def tiledRun (e : κ → ι) (n : ℕ) (r : Result ι K × List (ℕ × (ι → K))) : Result κ K × List (ℕ × (κ → K)) :=
  (r.1.tiled e n, r.2.map fun q => (q.1, fun i => q.2 (e i)))

lemma loop_tiled (he : Copies e n) (hP : Tiled e n P P') (ho : TiledOpt e n o o')
    (pentol : K) : ∀ (fuel it : ℕ) (s : State ι K) (s' : State κ K) (cb : List (ℕ × (ι → K))) (w : Option (StepOut ι K)) (w' : Option (StepOut κ K)),
      TiledState e n s s' → Option.Rel (TiledStep e n) w w' →
      loop P' o' pentol fuel it s' (cb.map fun q => (q.1, fun i => q.2 (e i))) w'
        = (loop P o pentol fuel it s cb w).map (tiledRun e n) := by
  intro fuel
  induction fuel with
  | zero =>
    intro it s s' cb w w' _ hw
    cases hw with
    | none => rfl
    | some hw => simp only [loop, Except.map, tiledRun, mkResult_tiled he hP ho hw]
  | succ fuel ih =>
    intro it s s' cb w w' hs _
    unfold loop
    rcases step_tiled he hP ho hs pentol with ⟨x, h1, h2⟩ | ⟨w, w', h1, h2, hw⟩
    · rw [h1, h2]; rfl
    · rw [h1, h2]
      dsimp only
      rw [hw.converged]
      split_ifs
      · simp only [Except.map, tiledRun, mkResult_tiled he hP ho hw]
      · rw [← ih (it + 1) w.next w'.next _ (some w) (some w') hw.next (Option.Rel.some hw)]
        rw [hw.next.f]
        simp

lemma initState_tiled (hP : Tiled e n P P') (ho : TiledOpt e n o o') : TiledState e n (initState P o) (initState P' o') := by
  have hu0 : o'.initialDisplacements.getD (fun _ => 0) = fun i => (o.initialDisplacements.getD fun _ => 0) (e i) := by
    rw [ho.initialDisplacements]; cases o.initialDisplacements <;> simp
  have hU : initU P' o' = fun i => initU P o (e i) := by
    funext i
    unfold initU
    rw [ho.offset, hu0]
    simp only [hP.comp, hP.h]
  have hf : (initState P' o').f = fun i => (initState P o).f (e i) := by
    funext i
    unfold initState
    rw [ho.initialForces]
    cases o.initialForces with
    | none =>
      simp only [Option.map_none, hP.comp]
      rw [hU, hP.force]
    | some f0 => simp only [Option.map_some, hP.comp]
  have hu : (initState P' o').u = fun i => (initState P o).u (e i) := by
    unfold initState
    rw [ho.initialForces]
    cases o.initialForces with
    | none => exact hU
    | some f0 => exact hP.disp f0
  refine ⟨hf, hu, rfl, rfl, rfl, fun h => absurd h (by simp [initState]), ho.mixfac, rfl, rfl, rfl, ?_, rfl⟩
  show o'.offset.getD 0 = o.offset.getD 0
  rw [ho.offset]

/-- **C185** (solver) On several copies of a surface, with a substrate under which fields that repeat respond as on one copy, the same penetration tolerance and the load multiplied by the
number of copies, the solver takes the same iterations, ends the same way and returns the fields of one copy, repeated; offset and tolerances reached are the same, the energy is
that of all copies. -/
theorem C185_solver (he : Copies e n) (hP : Tiled e n P P') (ho : TiledOpt e n o o') (hpt : pentolOf P' o' = pentolOf P o) :
    solveCb P' o' = (solveCb P o).map (tiledRun e n) := by
  unfold solveCb
  rw [hpt, ho.maxiter]
  cases pentolOf P o with
  | error x => rfl
  | ok pentol =>
    exact loop_tiled he hP ho pentol o.maxiter 0 _ _ [] none none (initState_tiled hP ho) Option.Rel.none

end CM.CCG
