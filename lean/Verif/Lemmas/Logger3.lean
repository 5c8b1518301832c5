import Verif.Lemmas.Logger2
/-!
# Lemmas on the logger: lines and reading them back
-/
namespace CM.Log

/-! ## Words -/

/-- No blank in it. -/
def NoBlank (s : Text) : Prop := ∀ c ∈ s, blank c = false

lemma splitWords_word (s : Text) : ∀ (cur rest : Text), NoBlank s → splitWords cur (s ++ rest) = splitWords (cur ++ s) rest := by
  induction s with
  | nil => intro cur rest _; simp
  | cons c s ih =>
    intro cur rest h
    have hc : blank c = false := h c (by simp)
    rw [List.cons_append, splitWords, hc]
    simp only [Bool.false_eq_true, if_false]
    rw [ih _ _ (fun d hd => h d (by simp [hd])), List.append_assoc]
    rfl

lemma blank_space : blank ' ' = true := by decide

lemma splitWords_blanks (n : ℕ) (s : Text) : splitWords [] (List.replicate n ' ' ++ s) = splitWords [] s := by
  induction n with
  | zero => rfl
  | succ n ih =>
    rw [List.replicate_succ, List.cons_append, splitWords, blank_space]
    simpa using ih

lemma splitWords_blank (cur s : Text) (h : cur ≠ []) : splitWords cur (' ' :: s) = cur :: splitWords [] s := by
  rw [splitWords, blank_space]
  simp [h]

/-- The words of a line of columns. -/
lemma splitWords_cols (ws : List (ℕ × Text)) (h : ∀ p ∈ ws, p.2 ≠ [] ∧ NoBlank p.2) :
    splitWords [] (joinCols (ws.map fun p => padLeft p.1 p.2)) = ws.map Prod.snd := by
  unfold joinCols
  induction ws with
  | nil => simp [splitWords]
  | cons p ws ih =>
    obtain ⟨hp1, hp2⟩ := h p (by simp)
    have ih := ih (fun q hq => h q (by simp [hq]))
    cases ws with
    | nil =>
      simp only [List.map_cons, List.map_nil, List.intercalate_singleton]
      unfold padLeft
      rw [splitWords_blanks]
      have := splitWords_word p.2 [] [] hp2
      rw [List.append_nil] at this
      rw [this]
      simp [splitWords, hp1]
    | cons q ws =>
      rw [List.map_cons, List.map_cons, List.intercalate_cons_cons, ← List.map_cons (f := fun p : ℕ × Text => padLeft p.1 p.2)]
      unfold padLeft at ih ⊢
      rw [List.append_assoc, List.append_assoc, splitWords_blanks, splitWords_word _ _ _ hp2, List.nil_append]
      rw [show ([' ', ' '] ++ List.intercalate [' ', ' '] (List.map (fun p : ℕ × Text => List.replicate (p.1 - p.2.length) ' ' ++ p.2) (q :: ws)))
        = ' ' :: (List.replicate 1 ' ' ++ List.intercalate [' ', ' '] (List.map (fun p : ℕ × Text => List.replicate (p.1 - p.2.length) ' ' ++ p.2) (q :: ws))) from rfl]
      rw [splitWords_blank _ _ hp1, splitWords_blanks, ih]
      rfl

/-- Not removed by `strip('# \\n')`. -/
def Kept (c : Char) : Prop := c ≠ '#' ∧ c ≠ ' ' ∧ c ≠ '\n'

lemma kept_of_word (s : Text) (h : Word s) (c : Char) (hc : c ∈ s) : Kept c := by
  obtain ⟨h1, h2⟩ := h.2 c hc
  refine ⟨h2, ?_, ?_⟩
  · rintro rfl; exact absurd h1 (by decide)
  · rintro rfl; exact absurd h1 (by decide)

/-- The shape of a line of columns. -/
lemma cols_shape (ws : List (ℕ × Text)) (hne : ws ≠ []) (h : ∀ p ∈ ws, ∃ h : p.2 ≠ [], Kept (p.2.head h) ∧ Kept (p.2.getLast h)) :
    ∃ (n : ℕ) (t : Text) (ht : t ≠ []), joinCols (ws.map fun p => padLeft p.1 p.2) = List.replicate n ' ' ++ t ∧ Kept (t.head ht) ∧ Kept (t.getLast ht) := by
  unfold joinCols
  induction ws with
  | nil => exact absurd rfl hne
  | cons p ws ih =>
    obtain ⟨hp, hk1, hk2⟩ := h p (by simp)
    cases ws with
    | nil =>
      refine ⟨p.1 - p.2.length, p.2, hp, ?_, hk1, hk2⟩
      simp only [List.map_cons, List.map_nil, List.intercalate_singleton]
      rfl
    | cons q ws =>
      obtain ⟨n, t, ht, e, _, k2⟩ := ih (by simp) (fun q hq => h q (by simp [hq]))
      refine ⟨p.1 - p.2.length, p.2 ++ ([' ', ' '] ++ (List.replicate n ' ' ++ t)), by simp [hp], ?_, ?_, ?_⟩
      · rw [List.map_cons, List.map_cons, List.intercalate_cons_cons, ← List.map_cons (f := fun p : ℕ × Text => padLeft p.1 p.2), e]
        unfold padLeft
        simp only [List.append_assoc]
      · rw [List.head_append_of_ne_nil hp]
        exact hk1
      · have : (p.2 ++ ([' ', ' '] ++ (List.replicate n ' ' ++ t))) = (p.2 ++ ([' ', ' '] ++ List.replicate n ' ')) ++ t := by simp
        simp only [this]
        rw [List.getLast_append_of_ne_nil _ ht]
        exact k2

lemma dropWhile_kept (p : Char → Bool) (t : Text) (ht : t ≠ []) (h : p (t.head ht) = false) : t.dropWhile p = t := by
  cases t with
  | nil => rfl
  | cons c t =>
    rw [List.head_cons] at h
    rw [List.dropWhile_cons, h]
    rfl

lemma stripHash_shape (n : ℕ) (t : Text) (ht : t ≠ []) (h1 : Kept (t.head ht)) (h2 : Kept (t.getLast ht)) :
    stripHash ('#' :: (List.replicate n ' ' ++ t)) = t := by
  unfold stripHash
  have hk : ∀ c, Kept c → (decide (c = '#') || decide (c = ' ') || decide (c = '\n')) = false := by
    rintro c ⟨a, b, d⟩
    simp [a, b, d]
  have hd : List.dropWhile (fun c : Char => decide (c = '#') || decide (c = ' ') || decide (c = '\n')) ('#' :: (List.replicate n ' ' ++ t)) = t := by
    rw [List.dropWhile_cons]
    simp only [decide_true, Bool.true_or, if_true]
    induction n with
    | zero =>
      rw [List.replicate_zero, List.nil_append]
      exact dropWhile_kept _ t ht (hk _ h1)
    | succ n ih =>
      rw [List.replicate_succ, List.cons_append, List.dropWhile_cons]
      simpa using ih
  simp only [hd]
  rw [dropWhile_kept _ t.reverse (by simpa using ht) (by rw [List.head_reverse]; exact hk _ h2), List.reverse_reverse]

/-! ## Columns -/

lemma flattenAll_eq (l : List Val) : flatten.flattenAll l = l.flatMap flatten := by
  induction l with
  | nil => rfl
  | cons v l ih => rw [flatten.flattenAll, ih, List.flatMap_cons]

lemma flatten_vec (l : List Val) (h : l ≠ []) : flatten (.vec l) = l.flatMap flatten := by
  cases l with
  | nil => exact absurd rfl h
  | cons v l => rw [flatten, flattenAll_eq, List.flatMap_cons]

lemma flatten_flat (v : Val) (h : v.Flat) : flatten v = v.columns.map fun p => .leaf p.1 p.2 := by
  cases v with
  | leaf w t => rfl
  | vec l =>
    obtain ⟨h1, h2⟩ := h
    rw [flatten_vec l h1]
    simp only [Val.columns]
    rw [List.map_flatMap]
    apply List.flatMap_congr
    intro v hv
    have := h2 v hv
    cases v with
    | leaf w t => rfl
    | vec l => exact absurd this (by simp)

lemma columns_length (v : Val) (h : v.Flat) : v.columns.length = v.size := by
  cases v with
  | leaf w t => rfl
  | vec l =>
    obtain ⟨_, h2⟩ := h
    simp only [Val.columns, Val.size]
    clear * - h2
    induction l with
    | nil => rfl
    | cons v l ih =>
      have := h2 v (by simp)
      rw [List.flatMap_cons, List.length_append, ih (fun w hw => h2 w (by simp [hw]))]
      cases v with
      | leaf w t => simp; omega
      | vec l => exact absurd this (by simp)

lemma columns_ne_nil (v : Val) (h : v.Flat) : v.columns ≠ [] := by
  rw [← List.length_pos_iff, columns_length v h]
  cases v with
  | leaf w t => exact Nat.one_pos
  | vec l => exact List.length_pos_iff.2 h.1

lemma labels_length (s : Text) (v : Val) (h : v.Flat) : (labels s v).length = v.size := by
  cases v with
  | leaf w t => rfl
  | vec l =>
    cases l with
    | nil => exact absurd rfl h.1
    | cons v l => simp [labels, Val.size]

lemma allLabels_length (vals : List Val) (h : ∀ v ∈ vals, v.Flat) : ∀ hdr : List Text, hdr.length = vals.length →
    (allLabels hdr vals).length = (vals.flatMap Val.columns).length := by
  induction vals with
  | nil => intro hdr hl; cases hdr <;> simp [allLabels]
  | cons v vals ih =>
    intro hdr hl
    cases hdr with
    | nil => simp at hl
    | cons s hdr =>
      rw [allLabels, List.length_append, labels_length s v (h v (by simp)), List.flatMap_cons, List.length_append,
        columns_length v (h v (by simp)), ih (fun w hw => h w (by simp [hw])) hdr (by simpa using hl)]

lemma numbered_length (l : List Text) : ∀ i, (numbered i l).length = l.length := by
  induction l with
  | nil => intro i; rfl
  | cons s l ih => intro i; simp [numbered, ih]

lemma cells_leaves (ws : List (ℕ × Text)) : ∀ args : List Text, args.length = ws.length →
    cells (ws.map fun p => .leaf p.1 p.2) args = .ok ((ws.zip args).map fun p => padLeft p.1.1 p.2) := by
  induction ws with
  | nil => intro args _; rfl
  | cons p ws ih =>
    intro args hl
    cases args with
    | nil => simp at hl
    | cons a args =>
      rw [List.map_cons, cells, ih args (by simpa using hl)]
      rfl

lemma render_leaves (c : Char) (ws : List (ℕ × Text)) (args : List Text) (h : args.length = ws.length) :
    render c (ws.map fun p => .leaf p.1 p.2) args = .ok (c :: joinCols ((ws.zip args).map fun p => padLeft p.1.1 p.2)) := by
  unfold render
  rw [cells_leaves ws args h]
  cases ws with
  | nil => rfl
  | cons p ws =>
    cases ws with
    | nil => rfl
    | cons q ws => rfl

/-- The two lines of a record with flat values. -/
lemma lines_flat (hdr : List Text) (vals : List Val) (hl : hdr.length = vals.length) (hne : vals ≠ []) (h : ∀ v ∈ vals, v.Flat) :
    headerLine hdr vals = .ok ('#' :: joinCols (((vals.flatMap Val.columns).zip (numbered 0 (allLabels hdr vals))).map fun p => padLeft p.1.1 p.2))
    ∧ recordLine vals = .ok (' ' :: joinCols ((vals.flatMap Val.columns).map fun p => padLeft p.1 p.2)) := by
  have hf : flatten (.vec vals) = (vals.flatMap Val.columns).map fun p => .leaf p.1 p.2 := by
    rw [flatten_vec vals hne, List.map_flatMap]
    apply List.flatMap_congr
    intro v hv
    exact flatten_flat v (h v hv)
  constructor
  · unfold headerLine
    rw [hf, render_leaves _ _ _ (by rw [numbered_length, allLabels_length vals h hdr hl])]
  · unfold recordLine
    rw [hf, render_leaves _ _ _ (by simp)]
    congr 3
    generalize vals.flatMap Val.columns = ws
    clear * -
    induction ws with
    | nil => rfl
    | cons p ws ih => simpa [textOf] using ih

/-! ## Column names -/

lemma repr_digits (n : ℕ) : ∀ c ∈ (Nat.repr n).toList, c.isDigit = true := by
  intro c hc
  exact Nat.isDigit_of_mem_toDigits (b := 10) (n := n) (by decide) (by decide) (by simpa [Nat.repr] using hc)

lemma digit_facts (c : Char) (h : c.isDigit = true) : blank c = false ∧ c ≠ '#' ∧ c ≠ ':' := by
  unfold Char.isDigit at h
  simp only [Bool.and_eq_true, decide_eq_true_eq] at h
  have h1 : 48 ≤ c.toNat := h.1
  have h2 : c.toNat ≤ 57 := h.2
  refine ⟨?_, ?_, ?_⟩
  · unfold blank
    have : c ≠ ' ' := by rintro rfl; exact absurd h1 (by decide)
    simp [this]
    omega
  · rintro rfl; exact absurd h1 (by decide)
  · rintro rfl; exact absurd h2 (by decide)

lemma repr_ne_nil (n : ℕ) : (Nat.repr n).toList ≠ [] := by
  intro h
  simp [Nat.repr] at h

lemma numbered_word (l : List Text) (h : ∀ s ∈ l, Word s) : ∀ i, ∀ s ∈ numbered i l, Word s := by
  induction l with
  | nil => intro i s hs; simp [numbered] at hs
  | cons a l ih =>
    intro i s hs
    rw [numbered, List.mem_cons] at hs
    rcases hs with rfl | hs
    · refine ⟨by simp, ?_⟩
      intro c hc
      rcases List.mem_append.1 hc with hc | hc
      · exact ⟨(digit_facts c (repr_digits _ c hc)).1, (digit_facts c (repr_digits _ c hc)).2.1⟩
      · rcases List.mem_cons.1 hc with rfl | hc
        · decide
        · exact (h a (by simp)).2 c hc
    · exact ih (fun s hs => h s (by simp [hs])) (i + 1) s hs

lemma dropWhile_append_stop (p : Char → Bool) (a : Text) (c : Char) (b : Text) (h : ∀ x ∈ a, p x = true) (hc : p c = false) :
    (a ++ c :: b).dropWhile p = c :: b := by
  induction a with
  | nil => rw [List.nil_append, List.dropWhile_cons, hc]; rfl
  | cons x a ih =>
    rw [List.cons_append, List.dropWhile_cons, h x (by simp)]
    exact ih (fun y hy => h y (by simp [hy]))

lemma takeWhile_all (p : Char → Bool) (a : Text) (h : ∀ x ∈ a, p x = true) : a.takeWhile p = a := by
  induction a with
  | nil => rfl
  | cons x a ih => rw [List.takeWhile_cons, h x (by simp)]; simp only [if_true]; rw [ih (fun y hy => h y (by simp [hy]))]

lemma afterColon_numbered (i : ℕ) (s : Text) (h : ':' ∉ s) : afterColon ((Nat.repr i).toList ++ ':' :: s) = .ok s := by
  unfold afterColon
  rw [dropWhile_append_stop _ _ _ _ (by
    intro x hx
    simpa using (digit_facts x (repr_digits i x hx)).2.2) (by simp)]
  simp only
  rw [takeWhile_all]
  intro x hx
  have : x ≠ ':' := by rintro rfl; exact h hx
  simpa using this

lemma mapM_numbered (l : List Text) (h : ∀ s ∈ l, ':' ∉ s) : ∀ i, (numbered i l).mapM afterColon = .ok l := by
  induction l with
  | nil => intro i; rfl
  | cons s l ih =>
    intro i
    rw [numbered, List.mapM_cons, afterColon_numbered _ _ (h s (by simp)), ih (fun s hs => h s (by simp [hs]))]
    rfl

lemma numbered_ne_nil (l : List Text) (h : l ≠ []) (i : ℕ) : numbered i l ≠ [] := by
  cases l with
  | nil => exact absurd rfl h
  | cons s l => simp [numbered]

lemma zip_map_pad (ws : List (ℕ × Text)) (l : List Text) :
    ((ws.zip l).map fun p => padLeft p.1.1 p.2) = ((ws.zip l).map fun p => (p.1.1, p.2)).map fun p => padLeft p.1 p.2 := by
  rw [List.map_map]; rfl

lemma zip_snd (ws : List (ℕ × Text)) (l : List Text) (h : l.length = ws.length) : ((ws.zip l).map fun p => (p.1.1, p.2)).map Prod.snd = l := by
  rw [List.map_map]
  show (ws.zip l).map Prod.snd = l
  exact List.map_snd_zip (by omega)

/-- The column names of a header. -/
lemma columnNames_header (ws : List (ℕ × Text)) (l : List Text) (hl : l.length = ws.length) (hne : l ≠ []) (h : ∀ s ∈ l, Word s ∧ ':' ∉ s) (rest : List Text) :
    columnNames (('#' :: joinCols ((ws.zip (numbered 0 l)).map fun p => padLeft p.1.1 p.2)) :: rest) = .ok l := by
  have hw := numbered_word l (fun s hs => (h s hs).1) 0
  have hlen : (numbered 0 l).length = ws.length := by rw [numbered_length, hl]
  rw [zip_map_pad]
  set cs := ((ws.zip (numbered 0 l)).map fun p => (p.1.1, p.2)) with hcs
  have hsnd : cs.map Prod.snd = numbered 0 l := zip_snd ws _ hlen
  have hword : ∀ p ∈ cs, Word p.2 := fun p hp => hw _ (by rw [← hsnd]; exact List.mem_map.2 ⟨p, hp, rfl⟩)
  have hcne : cs ≠ [] := by
    intro h0
    rw [h0] at hsnd
    exact numbered_ne_nil l hne 0 hsnd.symm
  obtain ⟨n, t, ht, e, k1, k2⟩ := cols_shape cs hcne (fun p hp =>
    ⟨(hword p hp).1, kept_of_word _ (hword p hp) _ (List.head_mem _), kept_of_word _ (hword p hp) _ (List.getLast_mem _)⟩)
  unfold columnNames
  rw [List.headD_cons, e, stripHash_shape n t ht k1 k2]
  have := splitWords_cols cs (fun p hp => ⟨(hword p hp).1, fun c hc => ((hword p hp).2 c hc).1⟩)
  rw [e, splitWords_blanks] at this
  rw [this, hsnd, mapM_numbered l (fun s hs => (h s hs).2)]

lemma dataRows_append (a b : List Text) : dataRows (a ++ b) = dataRows a ++ dataRows b := by simp [dataRows]

lemma dataRows_flatMap {α : Type*} (l : List α) (f : α → List Text) : dataRows (l.flatMap f) = l.flatMap fun x => dataRows (f x) := by
  induction l with
  | nil => rfl
  | cons a l ih => rw [List.flatMap_cons, dataRows_append, ih, List.flatMap_cons]

lemma dataRows_comment (s : Text) : dataRows ['#' :: s] = [] := by simp [dataRows, splitWords]

lemma cols_no_hash (ws : List (ℕ × Text)) (h : ∀ p ∈ ws, Word p.2) : ∀ c ∈ joinCols (ws.map fun p => padLeft p.1 p.2), c ≠ '#' := by
  unfold joinCols
  induction ws with
  | nil => simp
  | cons p ws ih =>
    have hp : ∀ c ∈ padLeft p.1 p.2, c ≠ '#' := by
      intro c hc
      rcases List.mem_append.1 hc with hc | hc
      · rw [List.eq_of_mem_replicate hc]; decide
      · exact ((h p (by simp)).2 c hc).2
    have ih := ih (fun q hq => h q (by simp [hq]))
    cases ws with
    | nil => simpa using hp
    | cons q ws =>
      rw [List.map_cons, List.map_cons, List.intercalate_cons_cons, ← List.map_cons (f := fun p : ℕ × Text => padLeft p.1 p.2)]
      intro c hc
      rcases List.mem_append.1 hc with hc | hc
      · rcases List.mem_append.1 hc with hc | hc
        · exact hp c hc
        · simp at hc; rw [hc]; decide
      · exact ih c hc

lemma dataRows_record (ws : List (ℕ × Text)) (hne : ws ≠ []) (h : ∀ p ∈ ws, Word p.2) :
    dataRows [' ' :: joinCols (ws.map fun p => padLeft p.1 p.2)] = [ws.map Prod.snd] := by
  unfold dataRows
  have h1 : List.takeWhile (fun c : Char => decide (c ≠ '#')) (' ' :: joinCols (ws.map fun p => padLeft p.1 p.2)) = ' ' :: joinCols (ws.map fun p => padLeft p.1 p.2) := by
    apply takeWhile_all
    intro c hc
    rcases List.mem_cons.1 hc with rfl | hc
    · decide
    · simpa using cols_no_hash ws h c hc
  simp only [List.map_cons, List.map_nil]
  rw [h1]
  have h2 : splitWords [] (' ' :: joinCols (ws.map fun p => padLeft p.1 p.2)) = ws.map Prod.snd := by
    have := splitWords_blanks 1 (joinCols (ws.map fun p => padLeft p.1 p.2))
    rw [List.replicate_one, List.singleton_append] at this
    rw [this]
    exact splitWords_cols ws (fun p hp => ⟨(h p hp).1, fun c hc => ((h p hp).2 c hc).1⟩)
  rw [h2]
  have : ws.map Prod.snd ≠ [] := by simpa using hne
  simp [this]

/-! ## What cannot be read -/

lemma splitWords_append_blank (a : Text) : ∀ (cur b : Text), splitWords cur (a ++ ' ' :: b) = splitWords cur a ++ splitWords [] b := by
  induction a with
  | nil =>
    intro cur b
    rw [List.nil_append]
    conv_lhs => rw [splitWords, blank_space]
    by_cases h : cur = [] <;> simp [h, splitWords]
  | cons c a ih =>
    intro cur b
    rw [List.cons_append, splitWords, splitWords]
    by_cases hc : blank c = true
    · simp only [hc, if_true]
      by_cases h : cur = []
      · simp only [h, if_true, ih]
      · simp only [h, if_false, ih, List.cons_append]
    · simp only [hc, if_false, ih, Bool.false_eq_true]

lemma afterColon_none (w : Text) (h : ':' ∉ w) : afterColon w = .error .indexError := by
  unfold afterColon
  have : w.dropWhile (fun c => decide (c ≠ ':')) = [] := by
    induction w with
    | nil => rfl
    | cons x w ih =>
      have hx : x ≠ ':' := by rintro rfl; exact h (by simp)
      rw [List.dropWhile_cons]
      simp only [ne_eq, hx, not_false_eq_true, decide_true, if_true]
      exact ih (fun hw => h (by simp [hw]))
  rw [this]

lemma afterColon_error (w : Text) (e : PyErr) (h : afterColon w = .error e) : e = .indexError := by
  unfold afterColon at h
  split at h
  · injection h with h; exact h.symm
  · cases h

lemma mapM_afterColon_error (l : List Text) (w : Text) (hw : w ∈ l) (h : ':' ∉ w) : l.mapM afterColon = .error .indexError := by
  induction l with
  | nil => simp at hw
  | cons a l ih =>
    rw [List.mapM_cons]
    cases ha : afterColon a with
    | error e =>
      rw [afterColon_error a e ha]; rfl
    | ok r =>
      rcases List.mem_cons.1 hw with rfl | hw
      · rw [afterColon_none w h] at ha; cases ha
      · rw [ih hw]; rfl

/-- Joined columns contain the words of the rest of each column after a blank. -/
lemma words_of_col (a b : Text) : ∀ (cs ds : List Text), ∃ x y, joinCols (cs ++ (a ++ ' ' :: b) :: ds) = x ++ ' ' :: (b ++ y) ∧ (y = [] ∧ ds = [] ∨ ∃ z, y = ' ' :: z) := by
  intro cs ds
  unfold joinCols
  induction cs with
  | nil =>
    cases ds with
    | nil => exact ⟨a, [], by simp, Or.inl ⟨rfl, rfl⟩⟩
    | cons d ds =>
      refine ⟨a, [' ', ' '] ++ List.intercalate [' ', ' '] (d :: ds), ?_, Or.inr ⟨_, rfl⟩⟩
      rw [List.nil_append, List.intercalate_cons_cons]
      simp
  | cons c cs ih =>
    obtain ⟨x, y, e, hy⟩ := ih
    refine ⟨c ++ [' ', ' '] ++ x, y, ?_, hy⟩
    have : ∃ q qs, cs ++ (a ++ ' ' :: b) :: ds = q :: qs := by
      cases cs with
      | nil => exact ⟨_, _, rfl⟩
      | cons q qs => exact ⟨q, _, rfl⟩
    obtain ⟨q, qs, hq⟩ := this
    rw [List.cons_append, hq, List.intercalate_cons_cons, ← hq, e]
    simp

lemma numbered_shape (l : List Text) (h : ∀ s ∈ l, ∃ h : s ≠ [], Kept (s.getLast h)) : ∀ i, ∀ s ∈ numbered i l,
    ∃ h : s ≠ [], Kept (s.head h) ∧ Kept (s.getLast h) := by
  induction l with
  | nil => intro i s hs; simp [numbered] at hs
  | cons a l ih =>
    intro i s hs
    rw [numbered, List.mem_cons] at hs
    rcases hs with rfl | hs
    · obtain ⟨ha, hk⟩ := h a (by simp)
      refine ⟨by simp, ?_, ?_⟩
      · rw [List.head_append_of_ne_nil (repr_ne_nil _)]
        have hm := List.head_mem (repr_ne_nil (i + 1))
        have hd := digit_facts _ (repr_digits _ _ hm)
        refine ⟨hd.2.1, ?_, ?_⟩
        · intro h'; rw [h'] at hd; exact absurd hd.1 (by decide)
        · intro h'; rw [h'] at hd; exact absurd hd.1 (by decide)
      · rw [List.getLast_append_of_ne_nil _ (by simp), List.getLast_cons ha]
        exact hk
    · exact ih (fun s hs => h s (by simp [hs])) (i + 1) s hs

lemma numbered_split (l1 : List Text) : ∀ (i : ℕ) (s : Text) (l2 : List Text), numbered i (l1 ++ s :: l2)
    = numbered i l1 ++ ((Nat.repr (i + l1.length + 1)).toList ++ ':' :: s) :: numbered (i + l1.length + 1) l2 := by
  induction l1 with
  | nil => intro i s l2; rfl
  | cons a l1 ih =>
    intro i s l2
    rw [List.cons_append, numbered, ih, numbered, List.length_cons]
    rw [show i + 1 + l1.length + 1 = i + (l1.length + 1) + 1 by omega]
    rfl

/-- A header with a name that contains a blank cannot be read. -/
lemma columnNames_blank (ws : List (ℕ × Text)) (l : List Text) (hl : l.length = ws.length)
    (hk : ∀ s ∈ l, ∃ h : s ≠ [], Kept (s.getLast h)) (a b w : Text) (hs : (a ++ ' ' :: b) ∈ l) (hw : w ∈ splitWords [] b) (hcol : ':' ∉ w) (rest : List Text) :
    columnNames (('#' :: joinCols ((ws.zip (numbered 0 l)).map fun p => padLeft p.1.1 p.2)) :: rest) = .error .indexError := by
  have hlen : (numbered 0 l).length = ws.length := by rw [numbered_length, hl]
  have hne : l ≠ [] := List.ne_nil_of_mem hs
  rw [zip_map_pad]
  set cs := ((ws.zip (numbered 0 l)).map fun p => (p.1.1, p.2)) with hcs
  have hsnd : cs.map Prod.snd = numbered 0 l := zip_snd ws _ hlen
  have hcne : cs ≠ [] := by
    intro h0
    rw [h0] at hsnd
    exact numbered_ne_nil l hne 0 hsnd.symm
  have hshape := numbered_shape l hk 0
  obtain ⟨n, t, ht, e, k1, k2⟩ := cols_shape cs hcne (fun p hp => hshape _ (by rw [← hsnd]; exact List.mem_map.2 ⟨p, hp, rfl⟩))
  unfold columnNames
  rw [List.headD_cons, e, stripHash_shape n t ht k1 k2]
  apply mapM_afterColon_error _ w _ hcol
  rw [← splitWords_blanks n t, ← e]
  -- the column of the name
  obtain ⟨l1, l2, hsplit⟩ := List.append_of_mem hs
  have hmem : ((Nat.repr (0 + l1.length + 1)).toList ++ ':' :: (a ++ ' ' :: b)) ∈ cs.map Prod.snd := by
    rw [hsnd, hsplit, numbered_split]
    simp
  obtain ⟨p, hp, hp2⟩ := List.mem_map.1 hmem
  obtain ⟨c1, c2, hc⟩ := List.append_of_mem hp
  rw [hc, List.map_append, List.map_cons]
  have hcell : padLeft p.1 p.2 = (List.replicate (p.1 - p.2.length) ' ' ++ ((Nat.repr (0 + l1.length + 1)).toList ++ ':' :: a)) ++ ' ' :: b := by
    unfold padLeft
    rw [List.append_assoc, List.append_assoc, List.cons_append, ← hp2]
  rw [hcell]
  obtain ⟨x, y, hxy, hy⟩ := words_of_col (List.replicate (p.1 - p.2.length) ' ' ++ ((Nat.repr (0 + l1.length + 1)).toList ++ ':' :: a)) b
    (c1.map fun p => padLeft p.1 p.2) (c2.map fun p => padLeft p.1 p.2)
  rw [hxy, splitWords_append_blank]
  apply List.mem_append_right
  rcases hy with ⟨rfl, _⟩ | ⟨z, rfl⟩
  · rwa [List.append_nil]
  · rw [splitWords_append_blank]
    exact List.mem_append_left _ hw

end CM.Log
