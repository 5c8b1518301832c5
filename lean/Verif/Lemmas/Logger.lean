import Verif.Spec.Logger
import Mathlib.Tactic.Common
import Mathlib.Tactic.Ring
import Mathlib.Tactic.Linarith
import Mathlib.Tactic.LinearCombination
import Mathlib.Tactic.Push
import Mathlib.Data.List.Induction
/-!
# Lemmas on the logger
-/
namespace CM.Log

/-- No template is waiting to be opened. -/
def Ready (S : State) : Prop := S.log.logfile = none → S.log.logfn = none

lemma openLogfile_ready (S : State) (h : Ready S) : openLogfile S = S := by
  unfold openLogfile
  cases hf : S.log.logfile with
  | some i => rfl
  | none => rw [h hf]

lemma ready_openLogfile (S : State) : Ready (openLogfile S) := by
  unfold openLogfile Ready
  cases hf : S.log.logfile with
  | some i => simp [hf]
  | none =>
    cases hn : S.log.logfn with
    | none => simp [hn]
    | some t => simp

lemma openLogfile_idem (S : State) : openLogfile (openLogfile S) = openLogfile S := openLogfile_ready _ (ready_openLogfile S)

/-- `_print` with no extra file appends to the sink and changes nothing else of the logger. -/
lemma print_sink (S : State) (s : Text) : sink (print S s) = sink S ++ [s] := by
  unfold print sink
  cases hf : S.log.logfile with
  | some i => simp [hf, World.write]
  | none => simp [hf]

lemma print_counters (S : State) (s : Text) (e : Option ℕ) :
    (print S s e).log.outcounter = S.log.outcounter ∧ (print S s e).log.sepcounter = S.log.sepcounter
    ∧ (print S s e).log.outevery = S.log.outevery ∧ (print S s e).log.sepevery = S.log.sepevery
    ∧ (print S s e).log.logfile = S.log.logfile ∧ (print S s e).log.logfn = S.log.logfn ∧ (print S s e).log.it = S.log.it := by
  unfold print
  cases hf : S.log.logfile with
  | some i => simp [hf]
  | none => simp [hf]

/-- Changing counters does not change the sink. -/
lemma sink_counters (S : State) (a b : ℤ) : sink ⟨{ S.log with outcounter := a, sepcounter := b }, S.world⟩ = sink S := rfl

/-- The invariant of the counters: `n` records so far, of which `m` were printed. -/
def Counters (L : Logger) (n m : ℕ) : Prop :=
  (2 ≤ L.outevery → L.outcounter = L.outevery - (n : ℤ) % L.outevery) ∧ (L.outevery ≤ 0 → L.outcounter = L.outevery)
  ∧ (2 ≤ L.sepevery → L.sepcounter = if m = 0 then 0 else L.sepevery - ((m : ℤ) - 1) % L.sepevery)
  ∧ (L.sepevery ≤ 1 → L.sepcounter = if m = 0 then 0 else L.sepevery)

/-- Is the next record due? -/
lemma out_due (o : ℤ) (ho : 2 ≤ o) (n : ℕ) : o - (n : ℤ) % o - 1 ≤ 0 ↔ o ∣ ((n : ℤ) + 1) := by
  have h1 := Int.emod_lt_of_pos (n : ℤ) (by omega : 0 < o)
  have h2 := Int.emod_nonneg (n : ℤ) (by omega : o ≠ 0)
  have h3 := Int.emod_add_mul_ediv (n : ℤ) o
  constructor
  · intro h
    have : (n : ℤ) % o = o - 1 := by omega
    refine ⟨(n : ℤ) / o + 1, ?_⟩
    rw [this] at h3
    linear_combination -h3
  · rintro ⟨k, hk⟩
    have : ((n : ℤ) + 1) % o = 0 := by rw [hk]; exact Int.mul_emod_right _ _
    by_contra hc
    have hlt : (n : ℤ) % o + 1 < o := by omega
    have : ((n : ℤ) + 1) % o = (n : ℤ) % o + 1 := by
      conv_lhs => rw [← h3]
      rw [show (n : ℤ) % o + o * ((n : ℤ) / o) + 1 = ((n : ℤ) % o + 1) + o * ((n : ℤ) / o) by ring, Int.add_mul_emod_self_left]
      exact Int.emod_eq_of_lt (by omega) hlt
    omega

lemma emod_succ (o : ℤ) (ho : 2 ≤ o) (n : ℤ) : (n + 1) % o = if o ∣ n + 1 then 0 else n % o + 1 := by
  have h1 := Int.emod_lt_of_pos n (by omega : 0 < o)
  have h2 := Int.emod_nonneg n (by omega : o ≠ 0)
  have h3 := Int.emod_add_mul_ediv n o
  split_ifs with h
  · exact Int.emod_eq_zero_of_dvd h
  · have hlt : n % o + 1 < o := by
      by_contra hc
      apply h
      have : n % o = o - 1 := by omega
      refine ⟨n / o + 1, ?_⟩
      rw [this] at h3
      linear_combination -h3
    conv_lhs => rw [← h3]
    rw [show n % o + o * (n / o) + 1 = (n % o + 1) + o * (n / o) by ring, Int.add_mul_emod_self_left]
    exact Int.emod_eq_of_lt (by omega) hlt

/-- What printing a record does. -/
lemma printRecord_ready (S : State) (hS : Ready S) (m : ℕ)
    (c3 : 2 ≤ S.log.sepevery → S.log.sepcounter = if m = 0 then 0 else S.log.sepevery - ((m : ℤ) - 1) % S.log.sepevery)
    (c4 : S.log.sepevery ≤ 1 → S.log.sepcounter = if m = 0 then 0 else S.log.sepevery)
    (hdr : List Text) (vals : List Val) (H R : Text) (hH : headerLine hdr vals = .ok H) (hR : recordLine vals = .ok R)
    (q : Prop) [Decidable q] (hq : q ↔ S.log.sepevery ≤ 1 ∨ S.log.sepevery ∣ (m : ℤ)) :
    let r := printRecord S hdr vals
    r.1 = .ok () ∧ Ready r.2
    ∧ r.2.log.outcounter = S.log.outcounter
    ∧ (2 ≤ S.log.sepevery → r.2.log.sepcounter = S.log.sepevery - (m : ℤ) % S.log.sepevery)
    ∧ (S.log.sepevery ≤ 1 → r.2.log.sepcounter = S.log.sepevery)
    ∧ sink r.2 = sink S ++ ((if q then [H] else []) ++ [R])
    ∧ r.2.log.outevery = S.log.outevery ∧ r.2.log.sepevery = S.log.sepevery
    ∧ r.2.log.logfile = S.log.logfile ∧ r.2.log.logfn = S.log.logfn ∧ r.2.log.it = S.log.it := by
  intro r
  have hsep : S.log.sepcounter - 1 ≤ 0 ↔ q := by
    rw [hq]
    rcases le_or_gt S.log.sepevery 1 with h | h
    · rw [c4 h]
      split_ifs <;> simp [h]
    · rw [c3 (by omega)]
      by_cases hm : m = 0
      · simp [hm]
      · rw [if_neg hm]
        have := out_due S.log.sepevery (by omega) (m - 1)
        have hcast : ((m - 1 : ℕ) : ℤ) = (m : ℤ) - 1 := by omega
        rw [hcast] at this
        rw [this]
        rw [show (m : ℤ) - 1 + 1 = m by ring]
        constructor
        · exact Or.inr
        · rintro (h' | h')
          · omega
          · exact h'
  set S1 : State := ⟨{ S.log with sepcounter := S.log.sepcounter - 1 }, S.world⟩ with hS1
  have hsink1 : sink S1 = sink S := rfl
  by_cases hq' : q
  · have hle : S1.log.sepcounter ≤ 0 := hsep.2 hq'
    set S2 : State := ⟨{ (print S1 H).log with sepcounter := (print S1 H).log.sepevery }, (print S1 H).world⟩ with hS2
    have hr : r = (.ok (), print S2 R) := by
      show printRecord S hdr vals = _
      unfold printRecord printHeader
      rw [← hS1, if_pos hle, hH]
      dsimp only
      rw [← hS2, hR]
    obtain ⟨a1, a2, a3, a4, a5, a6, a7⟩ := print_counters S1 H none
    obtain ⟨b1, b2, b3, b4, b5, b6, b7⟩ := print_counters S2 R none
    have hsink2 : sink S2 = sink (print S1 H) := rfl
    rw [hr]
    refine ⟨rfl, ?_, b1.trans a1, ?_, ?_, ?_, b3.trans a3, b4.trans a4, b5.trans a5, b6.trans a6, b7.trans a7⟩
    · intro h
      have h' : S.log.logfile = none := by rw [← a5, ← b5]; exact h
      show (print S2 R).log.logfn = none
      rw [b6]
      exact a6.trans (hS h')
    · intro h
      rcases hq.1 hq' with h' | h'
      · omega
      · rw [Int.emod_eq_zero_of_dvd h', sub_zero]
        exact b2.trans a4
    · intro _
      exact b2.trans a4
    · rw [print_sink, hsink2, print_sink, hsink1, if_pos hq', List.append_assoc]
  · have hle : ¬ S1.log.sepcounter ≤ 0 := fun h => hq' (hsep.1 h)
    have hq2 : ¬ (S.log.sepevery ≤ 1) ∧ ¬ S.log.sepevery ∣ (m : ℤ) := by
      rw [← not_or, ← hq]; exact hq'
    have hm : m ≠ 0 := fun h => hq2.2 (by simp [h])
    have hr : r = (.ok (), print S1 R) := by
      show printRecord S hdr vals = _
      unfold printRecord printHeader
      rw [← hS1, if_neg hle]
      dsimp only
      rw [hR]
    obtain ⟨b1, b2, b3, b4, b5, b6, b7⟩ := print_counters S1 R none
    rw [hr]
    refine ⟨rfl, ?_, b1, ?_, ?_, ?_, b3, b4, b5, b6, b7⟩
    · intro h
      have h' : S.log.logfile = none := by
        have := b5.symm.trans h
        exact this
      show (print S1 R).log.logfn = none
      rw [b6]
      exact hS h'
    · intro h
      refine b2.trans ?_
      show S.log.sepcounter - 1 = _
      rw [c3 h, if_neg hm]
      have := emod_succ S.log.sepevery h ((m : ℤ) - 1)
      rw [show (m : ℤ) - 1 + 1 = m by ring, if_neg hq2.2] at this
      rw [this]
      ring
    · intro h
      exact absurd h hq2.1
    · rw [print_sink, hsink1, if_neg hq']
      rfl

/-- What `st` does to a ready logger with the counters `n`, `m`. -/
lemma st_ready (S : State) (hS : Ready S) (n m : ℕ) (hc : Counters S.log n m) (hdr : List Text) (vals : List Val) (force : Bool)
    (hl : hdr.length = vals.length) (H R : Text) (hH : headerLine hdr vals = .ok H) (hR : recordLine vals = .ok R)
    (p : Prop) [Decidable p] (hp : p ↔ force = true ∨ S.log.outevery ≤ 1 ∨ S.log.outevery ∣ ((n : ℤ) + 1))
    (q : Prop) [Decidable q] (hq : q ↔ S.log.sepevery ≤ 1 ∨ S.log.sepevery ∣ (m : ℤ)) :
    (st S hdr vals force).1 = .ok () ∧ Ready (st S hdr vals force).2
    ∧ Counters (st S hdr vals force).2.log (n + 1) (if p then m + 1 else m)
    ∧ sink (st S hdr vals force).2 = sink S ++ (if p then (if q then [H] else []) ++ [R] else [])
    ∧ (st S hdr vals force).2.log.outevery = S.log.outevery ∧ (st S hdr vals force).2.log.sepevery = S.log.sepevery
    ∧ (st S hdr vals force).2.log.logfile = S.log.logfile ∧ (st S hdr vals force).2.log.logfn = S.log.logfn
    ∧ (st S hdr vals force).2.log.it = S.log.it := by
  obtain ⟨c1, c2, c3, c4⟩ := hc
  -- what printing gives, with any new value of the counter
  have printed : ∀ oc : ℤ, p → (2 ≤ S.log.outevery → oc = S.log.outevery - ((n : ℤ) + 1) % S.log.outevery) → (S.log.outevery ≤ 0 → oc = S.log.outevery) →
      let r := printRecord ⟨{ S.log with outcounter := oc }, S.world⟩ hdr vals
      r.1 = .ok () ∧ Ready r.2 ∧ Counters r.2.log (n + 1) (if p then m + 1 else m)
      ∧ sink r.2 = sink S ++ (if p then (if q then [H] else []) ++ [R] else [])
      ∧ r.2.log.outevery = S.log.outevery ∧ r.2.log.sepevery = S.log.sepevery
      ∧ r.2.log.logfile = S.log.logfile ∧ r.2.log.logfn = S.log.logfn ∧ r.2.log.it = S.log.it := by
    intro oc hp' h1 h2 r
    obtain ⟨a1, a2, a3, a4, a5, a6, a7, a8, a9, a10, a11⟩ :=
      printRecord_ready ⟨{ S.log with outcounter := oc }, S.world⟩ hS m c3 c4 hdr vals H R hH hR q hq
    refine ⟨a1, a2, ⟨?_, ?_, ?_, ?_⟩, ?_, a7, a8, a9, a10, a11⟩
    · rw [a7, a3]; push_cast; exact h1
    · rw [a7, a3]; exact h2
    · rw [a8, if_pos hp', if_neg (by omega)]
      intro h
      refine (a4 h).trans ?_
      push_cast
      rw [add_sub_cancel_right]
    · rw [a8, if_pos hp', if_neg (by omega)]
      exact a5
    · rw [if_pos hp']; exact a6
  unfold st
  rw [if_neg (by simpa using hl)]
  simp only [openLogfile_ready S hS]
  by_cases h1 : S.log.outevery = 1
  · rw [if_pos h1]
    exact printed S.log.outcounter (hp.2 (Or.inr (Or.inl (by omega)))) (by omega) (by omega)
  · rw [if_neg h1]
    rcases le_or_gt S.log.outevery 0 with h0 | h0
    · rw [if_pos (by rw [c2 h0]; omega)]
      exact printed S.log.outevery (hp.2 (Or.inr (Or.inl (by omega)))) (by omega) (fun _ => rfl)
    · have h2 : 2 ≤ S.log.outevery := by omega
      have hd := out_due _ h2 n
      rw [← c1 h2] at hd
      by_cases hdue : S.log.outcounter - 1 ≤ 0
      · rw [if_pos hdue]
        refine printed S.log.outevery (hp.2 (Or.inr (Or.inr (hd.1 hdue)))) (fun _ => ?_) (fun _ => rfl)
        rw [emod_succ _ h2, if_pos (hd.1 hdue), sub_zero]
      · rw [if_neg hdue]
        have hoc : S.log.outcounter - 1 = S.log.outevery - ((n : ℤ) + 1) % S.log.outevery := by
          rw [emod_succ _ h2, if_neg (fun h => hdue (hd.2 h)), c1 h2]
          ring
        have hpf : p ↔ force = true := by
          rw [hp]
          constructor
          · rintro (h | h | h)
            · exact h
            · omega
            · exact absurd (hd.2 h) hdue
          · exact Or.inl
        cases force with
        | true =>
          rw [if_pos rfl]
          exact printed (S.log.outcounter - 1) (hpf.2 rfl) (fun _ => hoc) (by omega)
        | false =>
          have hp' : ¬ p := by rw [hpf]; simp
          rw [if_neg (by simp), if_neg hp', if_neg hp']
          refine ⟨rfl, hS, ⟨?_, ?_, c3, c4⟩, by simp [sink], rfl, rfl, rfl, rfl, rfl⟩
          · intro _
            push_cast
            exact hoc
          · intro h; exact absurd h (by simpa using h0)

lemma pr_ready (S : State) (hS : Ready S) (c t : Text) (n m : ℕ) (hc : Counters S.log n m) :
    Ready (pr S c t) ∧ Counters (pr S c t).log n m ∧ sink (pr S c t) = sink S ++ [commentLine c t]
    ∧ (pr S c t).log.outevery = S.log.outevery ∧ (pr S c t).log.sepevery = S.log.sepevery
    ∧ (pr S c t).log.logfile = S.log.logfile ∧ (pr S c t).log.logfn = S.log.logfn ∧ (pr S c t).log.it = S.log.it := by
  unfold pr
  rw [openLogfile_ready S hS]
  obtain ⟨h1, h2, h3, h4, h5, h6, h7⟩ := print_counters S (commentLine c t) none
  refine ⟨?_, ?_, print_sink _ _, h3, h4, h5, h6, h7⟩
  · intro h; rw [h5] at h; rw [h6]; exact hS h
  · unfold Counters; rw [h1, h2, h3, h4]; exact hc

lemma run_append (S : State) (a b : List Op) : run S (a ++ b) = run (run S a) b := by simp [run]

lemma run_snoc (S : State) (a : List Op) (o : Op) : run S (a ++ [o]) = (step (run S a) o).2 := by simp [run]

lemma Printed_append (o : ℤ) (evs : List Event) (e : Event) (k : ℕ) (hk : k < evs.length) : Printed o (evs ++ [e]) k ↔ Printed o evs k := by
  unfold Printed
  rw [List.getElem?_append_left hk, List.take_append_of_le_length (by omega)]

lemma printedBefore_append (o : ℤ) (evs : List Event) (e : Event) (k : ℕ) (hk : k ≤ evs.length) :
    printedBefore o (evs ++ [e]) k = printedBefore o evs k := by
  unfold printedBefore
  congr 1
  apply List.filter_congr
  intro j hj
  have hj' : j < evs.length := lt_of_lt_of_le (List.mem_range.1 hj) hk
  rw [List.getElem?_append_left hj']
  have := propext (Printed_append o evs e j hj')
  rw [this]

lemma lines_append (hd ln : List Text → List Val → Text) (o s : ℤ) (evs : List Event) (e : Event) (k : ℕ) (hk : k < evs.length) :
    lines hd ln o s (evs ++ [e]) k = lines hd ln o s evs k := by
  unfold lines
  rw [List.getElem?_append_left hk, printedBefore_append o evs e k (by omega)]
  have := propext (Printed_append o evs e k hk)
  rw [this]

/-- Everything printed by a list of events. -/
lemma run_events (S : State) (hS : Ready S) (hfresh : Counters S.log 0 0) (hd ln : List Text → List Val → Text) (evs : List Event)
    (hok : ∀ e ∈ evs, e.Ok hd ln) :
    Ready (run S (evs.map Event.op))
    ∧ Counters (run S (evs.map Event.op)).log (records evs) (printedBefore S.log.outevery evs evs.length)
    ∧ sink (run S (evs.map Event.op)) = sink S ++ (List.range evs.length).flatMap (lines hd ln S.log.outevery S.log.sepevery evs)
    ∧ (run S (evs.map Event.op)).log.outevery = S.log.outevery ∧ (run S (evs.map Event.op)).log.sepevery = S.log.sepevery
    ∧ (run S (evs.map Event.op)).log.logfile = S.log.logfile ∧ (run S (evs.map Event.op)).log.logfn = S.log.logfn
    ∧ (run S (evs.map Event.op)).log.it = S.log.it := by
  classical
  induction evs using List.reverseRecOn with
  | nil => simpa [run, records, printedBefore] using ⟨hS, hfresh⟩
  | append_singleton evs e ih =>
    obtain ⟨r1, r2, r3, r4, r5, r6, r7, r8⟩ := ih (fun e he => hok e (by simp [he]))
    have hsplit : (List.range (evs ++ [e]).length).flatMap (lines hd ln S.log.outevery S.log.sepevery (evs ++ [e]))
        = (List.range evs.length).flatMap (lines hd ln S.log.outevery S.log.sepevery evs) ++ lines hd ln S.log.outevery S.log.sepevery (evs ++ [e]) evs.length := by
      rw [List.length_append, List.length_singleton, List.range_succ, List.flatMap_append, List.flatMap_singleton]
      congr 1
      apply List.flatMap_congr
      intro k hk
      exact lines_append _ _ _ _ _ _ _ (List.mem_range.1 hk)
    rw [List.map_append, List.map_singleton, run_snoc, hsplit]
    set T := run S (evs.map Event.op) with hT
    have hget : (evs ++ [e])[evs.length]? = some e := by simp
    have hpb : printedBefore S.log.outevery (evs ++ [e]) (evs ++ [e]).length
        = printedBefore S.log.outevery evs evs.length + if e.isRecord = true ∧ Printed S.log.outevery (evs ++ [e]) evs.length then 1 else 0 := by
      rw [← printedBefore_append _ evs e evs.length le_rfl]
      unfold printedBefore
      rw [List.length_append, List.length_singleton, List.range_succ, List.filter_append, List.length_append]
      congr 1
      rw [List.filter_singleton, hget]
      simp only [Option.map_some, Option.some.injEq]
      by_cases hh : e.isRecord = true ∧ Printed S.log.outevery (evs ++ [e]) evs.length
      · simp [hh]
      · simp [hh]
    cases e with
    | message c t =>
      obtain ⟨q1, q2, q3, q4, q5, q6, q7, q8⟩ := pr_ready T r1 c t _ _ r2
      have hrec : records (evs ++ [Event.message c t]) = records evs := by simp [records, Event.isRecord]
      have hpb' : printedBefore S.log.outevery (evs ++ [Event.message c t]) (evs ++ [Event.message c t]).length = printedBefore S.log.outevery evs evs.length := by
        rw [hpb]; simp [Event.isRecord]
      rw [hrec, hpb']
      refine ⟨q1, q2, ?_, q4.trans r4, q5.trans r5, q6.trans r6, q7.trans r7, q8.trans r8⟩
      show sink (pr T c t) = _
      rw [q3, r3, List.append_assoc]
      simp [lines]
    | record h v f =>
      obtain ⟨o1, o2, o3⟩ := hok (.record h v f) (by simp)
      have hrec : records (evs ++ [Event.record h v f]) = records evs + 1 := by simp [records, Event.isRecord]
      have hPr : Printed S.log.outevery (evs ++ [Event.record h v f]) evs.length ↔ f = true ∨ S.log.outevery ≤ 1 ∨ S.log.outevery ∣ ((records evs : ℤ) + 1) := by
        unfold Printed
        rw [hget]
        simp only
        rw [List.take_of_length_le (by simp), hrec]
        push_cast
        rfl
      obtain ⟨q0, q1, q2, q3, q4, q5, q6, q7, q8⟩ := st_ready T r1 _ _ r2 h v f o1 _ _ o2 o3
        (Printed S.log.outevery (evs ++ [Event.record h v f]) evs.length) (by rw [hPr, r4])
        (S.log.sepevery ≤ 1 ∨ S.log.sepevery ∣ (printedBefore S.log.outevery evs evs.length : ℤ)) (by rw [r5])
      refine ⟨q1, ?_, ?_, q4.trans r4, q5.trans r5, q6.trans r6, q7.trans r7, q8.trans r8⟩
      · rw [hrec, hpb]
        have : (printedBefore S.log.outevery evs evs.length + if (Event.record h v f).isRecord = true ∧ Printed S.log.outevery (evs ++ [Event.record h v f]) evs.length then 1 else 0)
            = if Printed S.log.outevery (evs ++ [Event.record h v f]) evs.length then printedBefore S.log.outevery evs evs.length + 1 else printedBefore S.log.outevery evs evs.length := by
          by_cases hh : Printed S.log.outevery (evs ++ [Event.record h v f]) evs.length <;> simp [Event.isRecord, hh]
        rw [this]
        exact q2
      · show sink (st T h v f).2 = _
        rw [q3, r3, List.append_assoc]
        congr 2
        unfold lines
        rw [hget]
        simp only [printedBefore_append _ _ (Event.record h v f) _ le_rfl]

end CM.Log
