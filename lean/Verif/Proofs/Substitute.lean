import Verif.Spec.Substitute
import Verif.Proofs.Dict
/-! Helper lemmas: replacing one placeholder after the other. -/
namespace MLMC.Sub

/-- The text with some names already replaced. -/
def mixed (σ : Str → Option Str) : List Piece → Str
  | [] => []
  | .ch c :: t => c :: mixed σ t
  | .ph n :: t => (match σ n with | some v => v | none => placeholder n) ++ mixed σ t

/-- All values used by `σ` are good. -/
def GoodSub (names : List Str) (σ : Str → Option Str) : Prop := ∀ n v, σ n = some v → GoodValue names v

/-- Splitting at the first `>` is unambiguous. -/
theorem sep_inj : ∀ {a b c d : Str}, '>' ∉ a → '>' ∉ b → a ++ '>' :: c = b ++ '>' :: d → a = b
  | [], [], _, _, _, _, _ => rfl
  | [], y :: b, _, _, _, hb, h => by simp at h; exact absurd (by simp [← h.1]) hb
  | x :: a, [], _, _, ha, _, h => by simp at h; exact absurd (by simp [h.1]) ha
  | x :: a, y :: b, c, d, ha, hb, h => by
      simp only [List.cons_append, List.cons.injEq] at h
      simp only [List.mem_cons, not_or] at ha hb
      rw [h.1, sep_inj ha.2 hb.2 h.2]

theorem prefix_ch (names : List Str) (σ : Str → Option Str) (hσ : GoodSub names σ) (n : Str) (hn : n ∈ names) :
    ∀ (m : Str), '<' ∉ m → '>' ∉ m → m <:+ n → ∀ t, (m ++ ['>']) <+: mixed σ t → ∃ t', t = (m ++ ['>']).map Piece.ch ++ t' := by
  intro m
  induction m with
  | nil =>
    intro _ _ _ t h
    cases t with
    | nil => simp [mixed] at h
    | cons p t =>
      cases p with
      | ch c =>
        simp only [mixed, List.nil_append, List.cons_prefix_cons] at h
        exact ⟨t, by simp [← h.1]⟩
      | ph k =>
        exfalso
        simp only [mixed] at h
        cases hk : σ k with
        | none => simp [hk, placeholder] at h
        | some v =>
          simp only [hk] at h
          obtain ⟨-, h2, h3⟩ := hσ k v hk
          cases v with
          | nil => exact h3 n hn (List.nil_infix)
          | cons a v =>
            simp only [List.nil_append, List.cons_append, List.cons_prefix_cons] at h
            exact h2 (by simp [← h.1])
  | cons a m ih =>
    intro hl hg hs t h
    have hs' : m <:+ n := (List.suffix_cons a m).trans hs
    cases t with
    | nil => simp [mixed] at h
    | cons p t =>
      cases p with
      | ch c =>
        simp only [mixed, List.cons_append, List.cons_prefix_cons] at h
        obtain ⟨t', ht⟩ := ih (by simp at hl; exact hl.2) (by simp at hg; exact hg.2) hs' t h.2
        exact ⟨t', by simp [ht, h.1]⟩
      | ph k =>
        exfalso
        simp only [mixed] at h
        cases hk : σ k with
        | none =>
          simp only [hk, placeholder, List.cons_append, List.cons_prefix_cons] at h
          exact hl (by simp [h.1])
        | some v =>
          simp only [hk] at h
          obtain ⟨-, h2, h3⟩ := hσ k v hk
          rcases List.prefix_or_prefix_of_prefix h (List.prefix_append v (mixed σ t)) with h' | h'
          · exact h2 (h'.subset (by simp))
          · rcases List.prefix_concat_iff.1 h' with e | h''
            · exact h2 (by rw [e]; simp)
            · exact h3 n hn (h''.isInfix.trans hs.isInfix)

/-- Where a placeholder starts in the text, the piece is this placeholder. -/
theorem prefix_ph (names : List Str) (hN : ∀ n ∈ names, GoodName n) (σ : Str → Option Str) (hσ : GoodSub names σ) (n : Str) (hn : n ∈ names)
    (t : List Piece) (hc : Complete names t) (h : placeholder n <+: mixed σ t) : ∃ t', t = .ph n :: t' ∧ σ n = none := by
  cases t with
  | nil => simp [mixed, placeholder] at h
  | cons p t =>
    cases p with
    | ch c =>
      exfalso
      simp only [mixed, placeholder, List.cons_prefix_cons] at h
      obtain ⟨t', ht⟩ := prefix_ch names σ hσ n hn n (hN n hn).1 (hN n hn).2 (List.suffix_refl n) t h.2
      refine hc.1 n hn ?_
      rw [source, ht, ← h.1]
      have : ∀ (l : Str) (t : List Piece), source (l.map Piece.ch ++ t) = l ++ source t := by
        intro l t
        induction l with
        | nil => rfl
        | cons a l ih => simp [source, ih]
      rw [this, List.cons_prefix_cons]
      exact ⟨rfl, List.prefix_append _ _⟩
    | ph k =>
      simp only [mixed] at h
      cases hk : σ k with
      | none =>
        simp only [hk, placeholder, List.cons_append, List.cons_prefix_cons, true_and, List.append_assoc, List.nil_append] at h
        obtain ⟨r, hr⟩ := h
        have := sep_inj (hN n hn).2 (hN k hc.1).2 (by simpa using hr)
        subst this
        exact ⟨t, rfl, hk⟩
      | some v =>
        exfalso
        obtain ⟨h1, -, h3⟩ := hσ k v hk
        simp only [hk, placeholder] at h
        cases v with
        | nil => exact h3 n hn List.nil_infix
        | cons a v =>
          simp only [List.cons_append, List.cons_prefix_cons] at h
          exact h1 (by simp [← h.1])

theorem replaceFrom_skip (p v : Str) : ∀ (a r : Str), replaceFrom p v a.length (a ++ r) = replaceFrom p v 0 r
  | [], _ => rfl
  | _ :: a, r => by simp only [List.length_cons, List.cons_append, replaceFrom]; exact replaceFrom_skip p v a r

theorem countFrom_skip (p : Str) : ∀ (a r : Str), countFrom p a.length (a ++ r) = countFrom p 0 r
  | [], _ => rfl
  | _ :: a, r => by simp only [List.length_cons, List.cons_append, countFrom]; exact countFrom_skip p a r

theorem isPrefixOf_eq (p s : Str) : p.isPrefixOf s = decide (p <+: s) := by
  rw [Bool.eq_iff_iff, List.isPrefixOf_iff_prefix, decide_eq_true_iff]

theorem replaceFrom_nomatch (p v : Str) : ∀ (w r : Str), (∀ a b c, w = a ++ b :: c → ¬ p <+: b :: (c ++ r)) →
    replaceFrom p v 0 (w ++ r) = w ++ replaceFrom p v 0 r
  | [], _, _ => rfl
  | b :: w, r, h => by
    simp only [List.cons_append, replaceFrom, isPrefixOf_eq, decide_eq_true_iff]
    rw [if_neg (h [] b w rfl), replaceFrom_nomatch p v w r (fun a b' c e => h (b :: a) b' c (by rw [e]; rfl))]

theorem countFrom_nomatch (p : Str) : ∀ (w r : Str), (∀ a b c, w = a ++ b :: c → ¬ p <+: b :: (c ++ r)) →
    countFrom p 0 (w ++ r) = countFrom p 0 r
  | [], _, _ => rfl
  | b :: w, r, h => by
    simp only [List.cons_append, countFrom, isPrefixOf_eq, decide_eq_true_iff]
    rw [if_neg (h [] b w rfl), countFrom_nomatch p w r (fun a b' c e => h (b :: a) b' c (by rw [e]; rfl))]

/-- No placeholder `n` starts inside the text of another name or of a value. -/
theorem no_start (names : List Str) (hN : ∀ n ∈ names, GoodName n) (σ : Str → Option Str) (hσ : GoodSub names σ) (n : Str) (hn : n ∈ names)
    (k : Str) (hk : k ∈ names) (hne : k ≠ n) (t : List Piece) (a : Str) (b : Char) (c : Str)
    (e : (match σ k with | some v => v | none => placeholder k) = a ++ b :: c) : ¬ placeholder n <+: b :: (c ++ mixed σ t) := by
  intro h
  simp only [placeholder, List.cons_prefix_cons] at h
  cases hs : σ k with
  | some v =>
    simp only [hs] at e
    exact (hσ k v hs).1 (by rw [e, ← h.1]; simp)
  | none =>
    simp only [hs, placeholder] at e
    cases a with
    | nil =>
      simp only [List.nil_append, List.cons.injEq] at e
      rw [← e.2] at h
      obtain ⟨r, hr⟩ := h.2
      exact hne (sep_inj (hN n hn).2 (hN k hk).2 (by simpa using hr)).symm
    | cons x a =>
      simp only [List.cons_append, List.cons.injEq] at e
      have : '<' ∈ k ++ ['>'] := by rw [e.2, ← h.1]; simp
      simp at this
      exact (hN k hk).1 this

/-- `σ` with one more name. -/
def more (σ : Str → Option Str) (n v : Str) : Str → Option Str := fun k => if k = n then some v else σ k

theorem replace_mixed (names : List Str) (hN : ∀ n ∈ names, GoodName n) (σ : Str → Option Str) (hσ : GoodSub names σ) (n v : Str) (hn : n ∈ names)
    (h0 : σ n = none) : ∀ t, Complete names t → replaceFrom (placeholder n) v 0 (mixed σ t) = mixed (more σ n v) t
  | [], _ => rfl
  | .ch c :: t, hc => by
    have hno : ¬ placeholder n <+: mixed σ (.ch c :: t) := by
      intro h
      obtain ⟨t', ht, -⟩ := prefix_ph names hN σ hσ n hn _ hc h
      simp at ht
    simp only [mixed] at hno ⊢
    simp only [replaceFrom, isPrefixOf_eq, decide_eq_true_iff]
    rw [if_neg hno, replace_mixed names hN σ hσ n v hn h0 t hc.2]
  | .ph k :: t, hc => by
    by_cases hk : k = n
    · subst hk
      have ih := replace_mixed names hN σ hσ k v hn h0 t hc.2
      simp only [mixed, h0, more, if_true]
      have hp : placeholder k <+: '<' :: ((k ++ ['>']) ++ mixed σ t) := List.prefix_append (placeholder k) _
      have hl : (placeholder k).length - 1 = (k ++ ['>']).length := by simp [placeholder]
      change replaceFrom (placeholder k) v 0 ('<' :: ((k ++ ['>']) ++ mixed σ t)) = _
      simp only [replaceFrom, isPrefixOf_eq, decide_eq_true_iff]
      rw [if_pos hp, hl, replaceFrom_skip, ih]
    · have ih := replace_mixed names hN σ hσ n v hn h0 t hc.2
      simp only [mixed]
      rw [replaceFrom_nomatch _ _ _ _ (fun a b c e => no_start names hN σ hσ n hn k hc.1 hk t a b c e), ih]
      simp [more, hk]

theorem count_mixed (names : List Str) (hN : ∀ n ∈ names, GoodName n) (σ : Str → Option Str) (hσ : GoodSub names σ) (n : Str) (hn : n ∈ names)
    (h0 : σ n = none) : ∀ t, Complete names t → (countFrom (placeholder n) 0 (mixed σ t) > 0 ↔ .ph n ∈ t)
  | [], _ => by simp [mixed, countFrom]
  | .ch c :: t, hc => by
    have hno : ¬ placeholder n <+: mixed σ (.ch c :: t) := by
      intro h
      obtain ⟨t', ht, -⟩ := prefix_ph names hN σ hσ n hn _ hc h
      simp at ht
    simp only [mixed] at hno ⊢
    simp only [countFrom, isPrefixOf_eq, decide_eq_true_iff]
    rw [if_neg hno, count_mixed names hN σ hσ n hn h0 t hc.2]
    simp
  | .ph k :: t, hc => by
    by_cases hk : k = n
    · subst hk
      simp only [mixed, h0]
      have hp : placeholder k <+: '<' :: ((k ++ ['>']) ++ mixed σ t) := List.prefix_append (placeholder k) _
      change countFrom (placeholder k) 0 ('<' :: ((k ++ ['>']) ++ mixed σ t)) > 0 ↔ _
      simp only [countFrom, isPrefixOf_eq, decide_eq_true_iff]
      rw [if_pos hp]
      simp
      omega
    · have ih := count_mixed names hN σ hσ n hn h0 t hc.2
      simp only [mixed]
      rw [countFrom_nomatch _ _ _ (fun a b c e => no_start names hN σ hσ n hn k hc.1 hk t a b c e), ih]
      simp [Ne.symm hk]

theorem mixed_more_of_not_mem (σ : Str → Option Str) (n v : Str) : ∀ t, .ph n ∉ t → mixed (more σ n v) t = mixed σ t
  | [], _ => rfl
  | .ch c :: t, h => by simp only [mixed]; rw [mixed_more_of_not_mem σ n v t (by simp at h; exact h)]
  | .ph k :: t, h => by
    simp only [List.mem_cons, not_or, Piece.ph.injEq] at h
    simp only [mixed]; rw [mixed_more_of_not_mem σ n v t h.2]
    simp [more, Ne.symm h.1]

/-- The loop over the parameters. -/
theorem fold_mixed (names : List Str) (hN : ∀ n ∈ names, GoodName n) (t : List Piece) (hc : Complete names t) :
    ∀ (params : List (Str × Str)) (σ : Str → Option Str) (used : List Str), GoodSub names σ → (∀ e ∈ params, e.1 ∈ names ∧ GoodValue names e.2 ∧ σ e.1 = none) →
      (params.map (·.1)).Nodup →
      ∃ σ' : Str → Option Str, params.foldl subStep (mixed σ t, used) = (mixed σ' t, used ++ (params.map (·.1)).filter fun n => decide (.ph n ∈ t)) ∧
        (∀ e ∈ params, σ' e.1 = some e.2) ∧ ∀ k, k ∉ params.map (·.1) → σ' k = σ k
  | [], σ, used, _, _, _ => ⟨σ, by simp, by simp, by simp⟩
  | (n, v) :: ps, σ, used, hσ, hp, hd => by
    obtain ⟨hn, hv, h0⟩ := hp (n, v) (by simp)
    simp only [List.map_cons, List.nodup_cons] at hd
    have hσ' : GoodSub names (more σ n v) := by
      intro k w hk
      simp only [more] at hk
      split at hk
      · cases hk; exact hv
      · exact hσ k w hk
    obtain ⟨σ', h1, h2, h3⟩ := fold_mixed names hN t hc ps (more σ n v) (if .ph n ∈ t then used ++ [n] else used) hσ' (by
      intro e he
      obtain ⟨a, b, c⟩ := hp e (by simp [he])
      refine ⟨a, b, ?_⟩
      have : e.1 ≠ n := fun h => hd.1 (h ▸ List.mem_map.2 ⟨e, he, rfl⟩)
      simp [more, this, c]) hd.2
    refine ⟨σ', ?_, ?_, ?_⟩
    · have hstep : subStep (mixed σ t, used) (n, v) = (mixed (more σ n v) t, if .ph n ∈ t then used ++ [n] else used) := by
        have hcnt := count_mixed names hN σ hσ n hn h0 t hc
        simp only [subStep]
        by_cases hm : .ph n ∈ t
        · rw [if_pos (show count (placeholder n) (mixed σ t) > 0 from hcnt.2 hm), if_pos hm, replace, replace_mixed names hN σ hσ n v hn h0 t hc]
        · rw [if_neg (show ¬ count (placeholder n) (mixed σ t) > 0 from fun h => hm (hcnt.1 h)), if_neg hm, mixed_more_of_not_mem σ n v t hm]
      rw [List.foldl_cons, hstep, h1]
      by_cases hm : .ph n ∈ t <;> simp [hm]
    · intro e he
      rcases List.mem_cons.1 he with rfl | he
      · rw [h3 _ hd.1]; simp [more]
      · exact h2 e he
    · intro k hk
      simp only [List.map_cons, List.mem_cons, not_or] at hk
      rw [h3 k hk.2]; simp [more, hk.1]

theorem mixed_source (t : List Piece) : mixed (fun _ => none) t = source t := by
  induction t with
  | nil => rfl
  | cons p t ih => cases p <;> simp [mixed, source, ih, placeholder]

theorem mixed_filled (σ : Str → Option Str) (val : Str → Str) : ∀ t, (∀ n, .ph n ∈ t → σ n = some (val n)) → mixed σ t = filled val t
  | [], _ => rfl
  | .ch c :: t, h => by simp only [mixed, filled]; rw [mixed_filled σ val t (fun n hn => h n (by simp [hn]))]
  | .ph k :: t, h => by simp only [mixed, filled]; rw [mixed_filled σ val t (fun n hn => h n (by simp [hn])), h k (by simp)]

theorem complete_mem (names : List Str) : ∀ t, Complete names t → ∀ n, .ph n ∈ t → n ∈ names
  | [], _, _, h => by simp at h
  | .ch c :: t, hc, n, h => complete_mem names t hc.2 n (by simpa using h)
  | .ph k :: t, hc, n, h => by
    rcases List.mem_cons.1 h with e | h
    · cases e; exact hc.1
    · exact complete_mem names t hc.2 n h

/-- Every text can be cut into pieces. -/
theorem pieces_exist (names : List Str) (hN : ∀ n ∈ names, GoodName n) : ∀ (k : Nat) (text : Str), text.length ≤ k → ∃ t, source t = text ∧ Complete names t
  | _, [], _ => ⟨[], rfl, trivial⟩
  | 0, _ :: _, h => by simp at h
  | k + 1, c :: s, h => by
    by_cases hp : ∃ n ∈ names, ('<' :: (n ++ ['>'])) <+: c :: s
    · obtain ⟨n, hn, hp⟩ := hp
      obtain ⟨r, hr⟩ := hp
      have : r.length ≤ k := by
        have := congrArg List.length hr
        simp at this h
        omega
      obtain ⟨t, ht, hc⟩ := pieces_exist names hN k r this
      exact ⟨.ph n :: t, by rw [source, ht, ← hr]; simp, hn, hc⟩
    · obtain ⟨t, ht, hc⟩ := pieces_exist names hN k s (by simp at h; exact h)
      refine ⟨.ch c :: t, by rw [source, ht], ?_, hc⟩
      intro n hn h'
      rw [source, ht] at h'
      exact hp ⟨n, hn, h'⟩

theorem count_pos_iff (p : Str) (hp : p ≠ []) : ∀ (s : Str), countFrom p 0 s > 0 ↔ p <:+: s
  | [] => by simp [countFrom, hp]
  | c :: s => by
    simp only [countFrom, isPrefixOf_eq, decide_eq_true_iff]
    by_cases h : p <+: c :: s
    · rw [if_pos h]
      exact ⟨fun _ => h.isInfix, fun _ => by omega⟩
    · rw [if_neg h, count_pos_iff p hp s, List.infix_cons_iff]
      exact ⟨Or.inr, fun h' => h'.resolve_left h⟩

end MLMC.Sub
