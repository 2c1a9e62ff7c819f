import Verif.Spec.Plots
import Verif.Model.PlotFigures
import Mathlib.Analysis.SpecialFunctions.Log.Basic
import Mathlib.Tactic.Linarith
import Mathlib.Tactic.Ring
import Mathlib.Tactic.FieldSimp
/-
Plots of distributions: domains, curves and histograms (C146).
-/
namespace MLMC
open Plot
variable {F : Type} [Field F] [LinearOrder F] [IsStrictOrderedRing F]

/-- `d` is the smallest interval with all intervals of the list (not empty). -/
structure Hull (l : List (F × F)) (d : F × F) : Prop where
  lower : ∃ a ∈ l, d.1 = a.1
  upper : ∃ a ∈ l, d.2 = a.2
  covers : ∀ a ∈ l, d.1 ≤ a.1 ∧ a.2 ≤ d.2

omit [Field F] [IsStrictOrderedRing F] in
theorem adjustDomain_hull {l : List (F × F)} {d : Option (F × F)} (h : (d = none ∧ l = []) ∨ ∃ x, d = some x ∧ Hull l x) (new : F × F) :
    Hull (l ++ [new]) (adjustDomain d new) := by
  rcases h with ⟨rfl, rfl⟩ | ⟨x, rfl, hx⟩
  · exact ⟨⟨new, by simp, rfl⟩, ⟨new, by simp, rfl⟩, by simp [adjustDomain]⟩
  · refine ⟨?_, ?_, ?_⟩
    · simp only [adjustDomain]
      rcases le_total x.1 new.1 with h | h
      · obtain ⟨a, ha, he⟩ := hx.lower; exact ⟨a, by simp [ha], by rw [min_eq_left h, he]⟩
      · exact ⟨new, by simp, min_eq_right h⟩
    · simp only [adjustDomain]
      rcases le_total x.2 new.2 with h | h
      · exact ⟨new, by simp, max_eq_right h⟩
      · obtain ⟨a, ha, he⟩ := hx.upper; exact ⟨a, by simp [ha], by rw [max_eq_left h, he]⟩
    · intro a ha
      simp only [adjustDomain]
      rcases List.mem_append.1 ha with ha | ha
      · have := hx.covers a ha
        exact ⟨(min_le_left _ _).trans this.1, this.2.trans (le_max_left _ _)⟩
      · rw [List.mem_singleton.1 ha]; exact ⟨min_le_right _ _, le_max_right _ _⟩

/-- Calls on a plot of distributions. -/
inductive DistCall (F : Type)
  | raw (samples : List F)
  | dist (o : DistObj F)

/-- The interval a call brings: the range of the samples, or the domain of the distribution. -/
def DistCall.Brings : DistCall F → F × F → Prop
  | .raw samples, d => d.1 ∈ samples ∧ d.2 ∈ samples ∧ ∀ x ∈ samples, d.1 ≤ x ∧ x ≤ d.2
  | .dist o, d => d = o.domain

/-- The calls one after another. -/
def distCalls (geo : F → F → Nat → List F) (log : F → F) : List (DistCall F) → DistPlot F → Except PyErr (DistPlot F)
  | [], p => .ok p
  | .raw s :: cs, p => (p.addRaw geo s).bind (distCalls geo log cs)
  | .dist o :: cs, p => distCalls geo log cs (p.addDist geo log o)

omit [Field F] [IsStrictOrderedRing F] in
theorem plot_min_spec (xs : List F) (x : F) : (xs.foldl min x ∈ x :: xs) ∧ ∀ y ∈ x :: xs, xs.foldl min x ≤ y := by
  induction xs generalizing x with
  | nil => simp
  | cons a xs ih =>
    obtain ⟨h1, h2⟩ := ih (min x a)
    simp only [List.foldl_cons]
    constructor
    · rcases List.mem_cons.1 h1 with h | h
      · rw [h]; rcases min_choice x a with h | h <;> rw [h] <;> simp
      · simp [h]
    · intro y hy
      have h3 := h2 (min x a) (by simp)
      rcases List.mem_cons.1 hy with rfl | hy
      · exact h3.trans (min_le_left _ _)
      · rcases List.mem_cons.1 hy with rfl | hy
        · exact h3.trans (min_le_right _ _)
        · exact h2 y (by simp [hy])

omit [Field F] [IsStrictOrderedRing F] in
theorem plot_max_spec (xs : List F) (x : F) : (xs.foldl max x ∈ x :: xs) ∧ ∀ y ∈ x :: xs, y ≤ xs.foldl max x := by
  induction xs generalizing x with
  | nil => simp
  | cons a xs ih =>
    obtain ⟨h1, h2⟩ := ih (max x a)
    simp only [List.foldl_cons]
    constructor
    · rcases List.mem_cons.1 h1 with h | h
      · rw [h]; rcases max_choice x a with h | h <;> rw [h] <;> simp
      · simp [h]
    · intro y hy
      have h3 := h2 (max x a) (by simp)
      rcases List.mem_cons.1 hy with rfl | hy
      · exact (le_max_left _ _).trans h3
      · rcases List.mem_cons.1 hy with rfl | hy
        · exact (le_max_right _ _).trans h3
        · exact h2 y (by simp [hy])

omit [IsStrictOrderedRing F] in
theorem addDist_domain (geo : F → F → Nat → List F) (log : F → F) (p : DistPlot F) (o : DistObj F) :
    (p.addDist geo log o).domain = some (adjustDomain p.domain o.domain) ∧ (p.addDist geo log o).exact = p.exact ∧
    (p.addDist geo log o).logX = p.logX ∧ (p.addDist geo log o).errorPlot = p.errorPlot ∧ (p.addDist geo log o).hists = p.hists ∧
    (p.addDist geo log o).pdfs = p.pdfs ++ [⟨grid geo p.logX o.domain 1000, (grid geo p.logX o.domain 1000).map o.density⟩] ∧
    (p.addDist geo log o).cdfs = p.cdfs ++ [⟨grid geo p.logX o.domain 1000, (grid geo p.logX o.domain 1000).map o.cdf⟩] := by
  unfold DistPlot.addDist
  cases p.errorPlot <;> cases p.exact <;> simp

omit [IsStrictOrderedRing F] in
theorem distCalls_domain (geo : F → F → Nat → List F) (log : F → F) (calls : List (DistCall F)) : ∀ {l : List (F × F)} {p p' : DistPlot F},
    ((p.domain = none ∧ l = []) ∨ ∃ x, p.domain = some x ∧ Hull l x) → distCalls geo log calls p = .ok p' →
    ∃ ds, List.Forall₂ DistCall.Brings calls ds ∧ ((p'.domain = none ∧ l ++ ds = []) ∨ ∃ x, p'.domain = some x ∧ Hull (l ++ ds) x) ∧
      p'.exact = p.exact ∧ p'.logX = p.logX := by
  induction calls with
  | nil => intro l p p' h he; cases he; exact ⟨[], .nil, by simpa using h, rfl, rfl⟩
  | cons c calls ih =>
    intro l p p' h he
    cases c with
    | raw s =>
      simp only [distCalls] at he
      cases s with
      | nil => cases he
      | cons x xs =>
        simp only [DistPlot.addRaw] at he
        cases hh : histogram (x :: xs) (grid geo p.logX (adjustDomain p.domain (xs.foldl min x, xs.foldl max x)) (Nat.sqrt (x :: xs).length / 2)) with
        | error e => rw [hh] at he; cases he
        | ok hist =>
          rw [hh] at he
          simp only [Except.map, Except.bind] at he
          obtain ⟨ds, h1, h2, h3, h4⟩ := ih (l := l ++ [(xs.foldl min x, xs.foldl max x)]) (Or.inr ⟨_, rfl, adjustDomain_hull h _⟩) he
          refine ⟨(xs.foldl min x, xs.foldl max x) :: ds, .cons ?_ h1, by simpa using h2, h3, h4⟩
          exact ⟨(plot_min_spec xs x).1, (plot_max_spec xs x).1, fun y hy => ⟨(plot_min_spec xs x).2 y hy, (plot_max_spec xs x).2 y hy⟩⟩
    | dist o =>
      simp only [distCalls] at he
      obtain ⟨d1, d2, d3, _⟩ := addDist_domain geo log p o
      obtain ⟨ds, h1, h2, h3, h4⟩ := ih (l := l ++ [o.domain]) (Or.inr ⟨_, d1, adjustDomain_hull h _⟩) he
      exact ⟨o.domain :: ds, .cons rfl h1, by simpa using h2, h3.trans d2, h4.trans d3⟩

/-- **C146.** Whatever samples and distributions are added in whatever order, the exact curves are drawn at last over the smallest interval with all the samples and all the
domains; with nothing added the exact distribution cannot be shown. -/
theorem C146_exact (geo : F → F → Nat → List F) (log : F → F) (pdf cdf : F → F) (logX : Bool) (e : ErrorPlot) (calls : List (DistCall F)) {p : DistPlot F}
    (h : distCalls geo log calls { exact := some (pdf, cdf), logX := logX, errorPlot := e } = .ok p) :
    (calls = [] → p.show geo = .error .typeError) ∧
    (calls ≠ [] → ∃ ds d p', List.Forall₂ DistCall.Brings calls ds ∧ Hull ds d ∧ p.show geo = .ok p' ∧
      p'.pdfs = p.pdfs ++ [⟨grid geo logX d 1000, (grid geo logX d 1000).map pdf⟩] ∧
      p'.cdfs = p.cdfs ++ [⟨grid geo logX d 1000, (grid geo logX d 1000).map cdf⟩]) := by
  obtain ⟨ds, h1, h2, h3, h4⟩ := distCalls_domain geo log calls (l := []) (Or.inl ⟨rfl, rfl⟩) h
  simp only [List.nil_append] at h2
  constructor
  · rintro rfl
    cases h
    rfl
  · intro hne
    rcases h2 with ⟨_, h2⟩ | ⟨d, hd, hh⟩
    · subst h2; cases h1; exact absurd rfl hne
    · refine ⟨ds, d, { p with pdfs := p.pdfs ++ [⟨grid geo logX d 1000, (grid geo logX d 1000).map pdf⟩], cdfs := p.cdfs ++ [⟨grid geo logX d 1000, (grid geo logX d 1000).map cdf⟩] }, h1, hh, ?_, rfl, rfl⟩
      unfold DistPlot.show; rw [h3]; simp only [hd]
      rw [h4]

/-- The curves a call brings: a distribution over its own domain, with its own density or distribution function. -/
def DistCall.curve (g : F × F → List F) (fn : DistObj F → F → F) : DistCall F → Option (Curve F)
  | .raw _ => none
  | .dist o => some ⟨g o.domain, (g o.domain).map (fn o)⟩

omit [IsStrictOrderedRing F] in
theorem distCalls_curves (geo : F → F → Nat → List F) (log : F → F) (calls : List (DistCall F)) : ∀ {p p' : DistPlot F}, distCalls geo log calls p = .ok p' →
    p'.pdfs = p.pdfs ++ calls.filterMap (DistCall.curve (fun d => grid geo p.logX d 1000) DistObj.density) ∧
    p'.cdfs = p.cdfs ++ calls.filterMap (DistCall.curve (fun d => grid geo p.logX d 1000) DistObj.cdf) := by
  induction calls with
  | nil => intro p p' h; cases h; simp
  | cons c calls ih =>
    intro p p' h
    cases c with
    | raw s =>
      simp only [distCalls] at h
      cases hr : p.addRaw geo s with
      | error e => rw [hr] at h; cases h
      | ok q =>
        rw [hr] at h
        have hq : q.pdfs = p.pdfs ∧ q.cdfs = p.cdfs ∧ q.logX = p.logX := by
          cases s with
          | nil => cases hr
          | cons x xs =>
            simp only [DistPlot.addRaw] at hr
            cases hh : histogram (x :: xs) (grid geo p.logX (adjustDomain p.domain (xs.foldl min x, xs.foldl max x)) (Nat.sqrt (x :: xs).length / 2)) with
            | error e => rw [hh] at hr; cases hr
            | ok _ => rw [hh] at hr; cases hr; exact ⟨rfl, rfl, rfl⟩
        have := ih h
        rw [hq.1, hq.2.1, hq.2.2] at this
        rw [List.filterMap_cons_none rfl, List.filterMap_cons_none rfl]
        exact this
    | dist o =>
      simp only [distCalls] at h
      obtain ⟨_, _, d3, _, _, d6, d7⟩ := addDist_domain geo log p o
      have := ih h
      rw [d6, d7, d3] at this
      simpa [DistCall.curve] using this

/-- **C146.** The curves drawn are those of the added distributions, in their order, each over its own domain; adding samples or further distributions changes none of them. -/
theorem C146_curves (geo : F → F → Nat → List F) (log : F → F) (exact : Option ((F → F) × (F → F))) (logX : Bool) (e : ErrorPlot) (calls : List (DistCall F))
    {p : DistPlot F} (h : distCalls geo log calls { exact := exact, logX := logX, errorPlot := e } = .ok p) :
    p.pdfs = calls.filterMap (DistCall.curve (fun d => grid geo logX d 1000) DistObj.density) ∧
    p.cdfs = calls.filterMap (DistCall.curve (fun d => grid geo logX d 1000) DistObj.cdf) := by
  simpa using distCalls_curves geo log calls h

/-- **C146.** The error curves of an added distribution: difference, or integrand of the divergence, of the densities at the points of its grid, and the difference of the
distribution functions. -/
theorem C146_errors (geo : F → F → Nat → List F) (log : F → F) (p : DistPlot F) (o : DistObj F) {pdf cdf : F → F} (he : p.exact = some (pdf, cdf)) :
    (p.errorPlot = .kl → (p.addDist geo log o).pdfErrs = p.pdfErrs ++ [⟨grid geo p.logX o.domain 1000,
      (grid geo p.logX o.domain 1000).map fun x => pdf x * log (pdf x / o.density x) - pdf x + o.density x⟩]) ∧
    (p.errorPlot = .diff → (p.addDist geo log o).pdfErrs = p.pdfErrs ++ [⟨grid geo p.logX o.domain 1000,
      (grid geo p.logX o.domain 1000).map fun x => o.density x - pdf x⟩]) ∧
    (p.errorPlot ≠ .off → (p.addDist geo log o).cdfErrs = p.cdfErrs ++ [⟨grid geo p.logX o.domain 1000,
      (grid geo p.logX o.domain 1000).map fun x => o.cdf x - cdf x⟩]) := by
  unfold DistPlot.addDist
  rw [he]
  cases p.errorPlot <;> simp

/-- **C146.** The curve of the error `kl` is nowhere negative where both densities are positive, and zero only where they agree. -/
theorem C146_kl {p q : ℝ} (hp : 0 < p) (hq : 0 < q) : 0 ≤ p * Real.log (p / q) - p + q ∧ (p * Real.log (p / q) - p + q = 0 ↔ p = q) := by
  have key : ∀ {x : ℝ}, 0 < x → x ≠ 1 → Real.log x < x - 1 := fun hx h1 => Real.log_lt_sub_one_of_pos hx h1
  have hlog : Real.log (p / q) = - Real.log (q / p) := by rw [← Real.log_inv, inv_div]
  by_cases h : p = q
  · subst h
    rw [div_self hp.ne', Real.log_one]
    constructor
    · linarith
    · simp
  · have hne : q / p ≠ 1 := fun he => h ((div_eq_one_iff_eq hp.ne').1 he).symm
    have h1 := key (div_pos hq hp) hne
    have h2 : p * Real.log (q / p) < p * (q / p - 1) := mul_lt_mul_of_pos_left h1 hp
    have h3 : p * (q / p - 1) = q - p := by field_simp
    have h4 : 0 < p * Real.log (p / q) - p + q := by rw [hlog]; linarith
    exact ⟨h4.le, fun he => absurd he h4.ne', fun he => absurd he h⟩


/-! Histograms. -/

theorem chain_le_last {a b : F} {rest : List F} (h : List.IsChain (· < ·) (a :: b :: rest)) : b ≤ (a :: b :: rest).getLast (by simp) := by
  induction rest generalizing a b with
  | nil => simp
  | cons c rest ih =>
    have h' := (List.isChain_cons_cons.1 h)
    have := ih h'.2
    have hbc : b < c := (List.isChain_cons_cons.1 h'.2).1
    rw [List.getLast_cons (by simp)]
    exact hbc.le.trans this

theorem countP_split (samples : List F) {a b z : F} (hab : a < b) (hbz : b ≤ z) :
    samples.countP (fun x => decide (a ≤ x ∧ x < b)) + samples.countP (fun x => decide (b ≤ x ∧ x ≤ z)) =
      samples.countP fun x => decide (a ≤ x ∧ x ≤ z) := by
  induction samples with
  | nil => rfl
  | cons x xs ih =>
    simp only [List.countP_cons]
    have : (if decide (a ≤ x ∧ x < b) = true then 1 else 0) + (if decide (b ≤ x ∧ x ≤ z) = true then 1 else 0) =
        (if decide (a ≤ x ∧ x ≤ z) = true then 1 else 0) := by
      rcases lt_or_ge x b with hx | hx
      · have h1 : ¬ b ≤ x := not_le.2 hx
        have h2 : x ≤ z := hx.le.trans hbz
        simp [h1, hx, h2]
      · have h1 : ¬ x < b := not_lt.2 hx
        have h2 : a ≤ x := hab.le.trans hx
        simp [h1, hx, h2]
    omega

theorem binCounts_sum (samples : List F) {a b : F} {rest : List F} (h : List.IsChain (· < ·) (a :: b :: rest)) :
    (binCounts samples (a :: b :: rest)).sum =
      samples.countP fun x => decide (a ≤ x ∧ x ≤ (a :: b :: rest).getLast (by simp)) := by
  induction rest generalizing a b with
  | nil => simp [binCounts]
  | cons c rest ih =>
    have h' := List.isChain_cons_cons.1 h
    have hlast := chain_le_last h'.2
    have hbc : b < c := (List.isChain_cons_cons.1 h'.2).1
    rw [binCounts, List.sum_cons, ih h'.2]
    rw [List.getLast_cons (by simp : b :: c :: rest ≠ [])]
    exact countP_split samples h'.1 (hbc.le.trans hlast)

theorem binCounts_length (samples : List F) : ∀ edges : List F, (binCounts samples edges).length = edges.length - 1
  | [] => rfl
  | [_] => rfl
  | [_, _] => rfl
  | _ :: b :: c :: rest => by
    rw [binCounts, List.length_cons, binCounts_length samples (b :: c :: rest)]; simp

theorem widths_pos {edges : List F} (h : List.IsChain (· < ·) edges) : ∀ w ∈ List.zipWith (fun b a => b - a) edges.tail edges, 0 < w := by
  induction edges with
  | nil => simp
  | cons a edges ih =>
    cases edges with
    | nil => simp
    | cons b rest =>
      have h' := List.isChain_cons_cons.1 h
      intro w hw
      simp only [List.tail_cons, List.zipWith_cons_cons, List.mem_cons] at hw
      rcases hw with rfl | hw
      · linarith [h'.1]
      · exact ih h'.2 w hw

theorem area (T : F) : ∀ (counts : List Nat) (ws : List F), counts.length = ws.length → (∀ w ∈ ws, 0 < w) →
    List.zipWith (· * ·) (List.zipWith (fun (n : Nat) (w : F) => (n : F) / T / w) counts ws) ws = counts.map fun n : Nat => (n : F) / T
  | [], _, _, _ => by simp
  | n :: ns, w :: ws, h, hw => by
    simp only [List.zipWith_cons_cons, List.map_cons]
    rw [area T ns ws (by simpa using h) fun x hx => hw x (by simp [hx])]
    congr 1
    have := (hw w (by simp)).ne'
    field_simp

/-- A histogram with strictly increasing edges, two or more, whose first is not above and whose last is not below any of the samples (one or more) counts every
sample once: the areas of the bars are the fractions of the samples in the bins, and are one together. -/
theorem histogram_area {samples : List F} (hs : samples ≠ []) {a b : F} {rest : List F} (h : List.IsChain (· < ·) (a :: b :: rest))
    (hin : ∀ x ∈ samples, a ≤ x ∧ x ≤ (a :: b :: rest).getLast (by simp)) :
    ∃ heights, histogram samples (a :: b :: rest) = .ok heights ∧
      List.zipWith (· * ·) heights (List.zipWith (fun b a => b - a) (b :: rest) (a :: b :: rest)) =
        (binCounts samples (a :: b :: rest)).map (fun n : Nat => (n : F) / (samples.length : F)) ∧
      (List.zipWith (· * ·) heights (List.zipWith (fun b a => b - a) (b :: rest) (a :: b :: rest))).sum = 1 := by
  have hsum : (binCounts samples (a :: b :: rest)).sum = samples.length := by
    rw [binCounts_sum samples h, List.countP_eq_length]
    intro x hx; simpa using hin x hx
  have hN : (samples.length : F) ≠ 0 := by
    have : 0 < samples.length := List.length_pos_of_ne_nil hs
    exact_mod_cast this.ne'
  have harea := area (samples.length : F) (binCounts samples (a :: b :: rest)) (List.zipWith (fun b a => b - a) (b :: rest) (a :: b :: rest))
    (by rw [binCounts_length]; simp) (widths_pos h)
  refine ⟨_, ?_, harea, ?_⟩
  · unfold histogram
    rw [if_neg (by simp), if_neg (by simpa using h.imp fun _ _ hh => hh.le)]
    simp only [hsum]
    rfl
  · rw [harea]
    have : ∀ l : List Nat, (l.map fun n : Nat => (n : F) / (samples.length : F)).sum = ((l.sum : Nat) : F) / (samples.length : F) := by
      intro l
      induction l with
      | nil => simp
      | cons n l ih => simp only [List.map_cons, List.sum_cons, ih]; push_cast; ring
    rw [this, hsum, div_self hN]


theorem linspace_edges {lo hi : F} (h : lo < hi) {k : Nat} (hk : 2 ≤ k) :
    ∃ b rest, linspace lo hi k = lo :: b :: rest ∧ List.IsChain (· < ·) (lo :: b :: rest) ∧ (lo :: b :: rest).getLast (by simp) = hi := by
  have hk1 : (0 : F) < (k : F) - 1 := by
    have : ((2 : Nat) : F) ≤ (k : F) := by exact_mod_cast hk
    push_cast at this; linarith
  have hstep : 0 < (hi - lo) / ((k : F) - 1) := div_pos (by linarith) hk1
  have hlin : linspace lo hi k = (List.range k).map fun i : Nat => lo + (i : F) * ((hi - lo) / ((k : F) - 1)) := by
    unfold linspace
    refine List.map_congr_left fun i _ => ?_
    rw [if_neg (by omega)]
  have hchain : List.IsChain (· < ·) (linspace lo hi k) := by
    rw [hlin, List.isChain_map]
    refine (List.isChain_range _ k).2 fun m _ => ?_
    have : ((m + 1 : Nat) : F) = (m : F) + 1 := by push_cast; ring
    rw [this]
    nlinarith
  have hhead : (linspace lo hi k).head? = some lo := by
    rw [hlin]
    obtain ⟨k', rfl⟩ : ∃ k', k = k' + 1 := ⟨k - 1, by omega⟩
    rw [List.range_succ_eq_map]; simp
  have hlast : (linspace lo hi k).getLast? = some hi := by
    rw [hlin]
    obtain ⟨k', rfl⟩ : ∃ k', k = k' + 1 := ⟨k - 1, by omega⟩
    rw [List.range_succ, List.map_append, List.map_singleton, List.getLast?_concat]
    have : ((k' + 1 : Nat) : F) - 1 = (k' : F) := by push_cast; ring
    rw [this] at hk1 ⊢
    rw [mul_div_cancel₀ _ hk1.ne']
    simp
  have hlen : (linspace lo hi k).length = k := by simp [linspace]
  match hl : linspace lo hi k, hlen with
  | [], hlen => simp at hlen; omega
  | [_], hlen => simp at hlen; omega
  | a :: b :: rest, _ =>
    rw [hl] at hhead hlast hchain
    simp only [List.head?_cons, Option.some.injEq] at hhead
    subst hhead
    refine ⟨b, rest, rfl, hchain, ?_⟩
    rw [List.getLast?_eq_some_getLast (by simp)] at hlast
    simpa using hlast

theorem binCounts_get (samples : List F) : ∀ (edges : List F) (i : Nat) (h : i + 1 < edges.length),
    (binCounts samples edges)[i]? = some (samples.countP fun x => decide (edges[i] ≤ x ∧ (x < edges[i + 1] ∨ (i + 2 = edges.length ∧ x = edges[i + 1]))))
  | [], _, h => by simp at h
  | [_], _, h => by simp at h
  | [a, b], i, h => by
    have hi : i = 0 := by simp at h; omega
    subst hi
    simp only [binCounts, List.getElem?_cons_zero]
    congr 2
    funext x
    simp [le_iff_lt_or_eq (a := x) (b := b)]
  | a :: b :: c :: rest, 0, h => by
    simp only [binCounts, List.getElem?_cons_zero]
    congr 2
    funext x
    simp
  | a :: b :: c :: rest, i + 1, h => by
    have := binCounts_get samples (b :: c :: rest) i (by simpa using h)
    rw [binCounts, List.getElem?_cons_succ, this]
    simp

/-- What `np.geomspace` and `np.linspace` give for two or more points: increasing numbers from the first to the second argument. -/
def Spaced (space : F → F → Nat → List F) (lo hi : F) : Prop :=
  ∀ k, 2 ≤ k → ∃ b rest, space lo hi k = lo :: b :: rest ∧ List.IsChain (· < ·) (lo :: b :: rest) ∧ (lo :: b :: rest).getLast (by simp) = hi

/-- Exact geometric numbers satisfy the hypothesis of the following theorem. -/
theorem exactGeomspace_spaced {lo hi : ℝ} (h0 : 0 < lo) (h : lo < hi) : Spaced exactGeomspace lo hi := by
  intro k hk
  have hk1 : (0 : ℝ) < (k : ℝ) - 1 := by
    have : ((2 : Nat) : ℝ) ≤ (k : ℝ) := by exact_mod_cast hk
    push_cast at this; linarith
  have hr : 1 < hi / lo := (one_lt_div h0).2 h
  have hchain : List.IsChain (· < ·) (exactGeomspace lo hi k) := by
    unfold exactGeomspace
    rw [List.isChain_map]
    refine (List.isChain_range _ k).2 fun m _ => ?_
    refine mul_lt_mul_of_pos_left (Real.rpow_lt_rpow_of_exponent_lt hr ?_) h0
    rw [div_lt_div_iff_of_pos_right hk1]
    push_cast; linarith
  have hhead : (exactGeomspace lo hi k).head? = some lo := by
    unfold exactGeomspace
    obtain ⟨k', rfl⟩ : ∃ k', k = k' + 1 := ⟨k - 1, by omega⟩
    rw [List.range_succ_eq_map]; simp
  have hlast : (exactGeomspace lo hi k).getLast? = some hi := by
    unfold exactGeomspace
    obtain ⟨k', rfl⟩ : ∃ k', k = k' + 1 := ⟨k - 1, by omega⟩
    rw [List.range_succ, List.map_append, List.map_singleton, List.getLast?_concat]
    have : ((k' + 1 : Nat) : ℝ) - 1 = (k' : ℝ) := by push_cast; ring
    rw [this] at hk1 ⊢
    rw [div_self hk1.ne', Real.rpow_one, mul_div_cancel₀ _ h0.ne']
  have hlen : (exactGeomspace lo hi k).length = k := by simp [exactGeomspace]
  match hl : exactGeomspace lo hi k, hlen with
  | [], hlen => simp at hlen; omega
  | [_], hlen => simp at hlen; omega
  | a :: b :: rest, _ =>
    rw [hl] at hhead hlast hchain
    simp only [List.head?_cons, Option.some.injEq] at hhead
    subst hhead
    refine ⟨b, rest, rfl, hchain, ?_⟩
    rw [List.getLast?_eq_some_getLast (by simp)] at hlast
    simpa using hlast

/-- **C146.** The histogram of 16 or more samples, not all equal, whatever was added before, on a linear axis, or a logarithmic one with positive samples: its edges increase from the lower to the
upper end of the common domain, every bar has the area of the fraction of samples in its bin (the last one with its right end), and the areas are one together. -/
theorem C146_histogram (geo : F → F → Nat → List F) (hgeo : ∀ lo hi, 0 < lo → lo < hi → Spaced geo lo hi) (p : DistPlot F) {samples : List F}
    (hlin : p.logX = false ∨ (∀ x ∈ samples, 0 < x) ∧ ∀ d, p.domain = some d → 0 < d.1) (hN : 16 ≤ samples.length)
    (hne : ∃ x ∈ samples, ∃ y ∈ samples, x < y) :
    ∃ p' edges heights d, p.addRaw geo samples = .ok p' ∧ p'.hists = p.hists ++ [(edges, heights)] ∧ p'.domain = some d ∧
      2 ≤ edges.length ∧ List.IsChain (· < ·) edges ∧ edges.head? = some d.1 ∧ edges.getLast? = some d.2 ∧ heights.length + 1 = edges.length ∧
      (∀ i (h : i + 1 < edges.length), heights.getD i 0 * (edges[i + 1] - edges[i]) =
        (samples.countP fun x => decide (edges[i] ≤ x ∧ (x < edges[i + 1] ∨ (i + 2 = edges.length ∧ x = edges[i + 1])))) / (samples.length : F)) ∧
      (List.zipWith (· * ·) heights (List.zipWith (fun b a => b - a) edges.tail edges)).sum = 1 := by
  have hk : 2 ≤ Nat.sqrt samples.length / 2 := by
    have : 4 ≤ Nat.sqrt samples.length := Nat.le_sqrt.2 (by omega)
    omega
  cases samples with
  | nil => simp at hN
  | cons x xs =>
    have hmin := plot_min_spec xs x
    have hmax := plot_max_spec xs x
    set d := adjustDomain p.domain (xs.foldl min x, xs.foldl max x) with hd
    have hd1 : d.1 ≤ xs.foldl min x := by
      rw [hd]; unfold adjustDomain; cases p.domain with
      | none => exact le_rfl
      | some e => exact min_le_right _ _
    have hd2 : xs.foldl max x ≤ d.2 := by
      rw [hd]; unfold adjustDomain; cases p.domain with
      | none => exact le_rfl
      | some e => exact le_max_right _ _
    have hlt : d.1 < d.2 := by
      obtain ⟨y, hy, z, hz, hyz⟩ := hne
      exact lt_of_le_of_lt (hd1.trans (hmin.2 y hy)) (lt_of_lt_of_le hyz ((hmax.2 z hz).trans hd2))
    have hpos : p.logX = true → 0 < d.1 := by
      intro hl
      rcases hlin with h | ⟨h1, h2⟩
      · rw [hl] at h; cases h
      · have hm : 0 < xs.foldl min x := h1 _ hmin.1
        rw [hd]; unfold adjustDomain
        cases hdom : p.domain with
        | none => exact hm
        | some e => exact lt_min (h2 e hdom) hm
    obtain ⟨b, rest, he, hch, hlast⟩ : ∃ b rest, grid geo p.logX d (Nat.sqrt (x :: xs).length / 2) = d.1 :: b :: rest ∧
        List.IsChain (· < ·) (d.1 :: b :: rest) ∧ (d.1 :: b :: rest).getLast (by simp) = d.2 := by
      unfold grid
      cases hl : p.logX with
      | false => exact linspace_edges hlt hk
      | true => exact hgeo d.1 d.2 (hpos hl) hlt _ hk
    obtain ⟨heights, h1, h2, h3⟩ := histogram_area (samples := x :: xs) (by simp) hch
      (fun y hy => ⟨hd1.trans (hmin.2 y hy), by rw [hlast]; exact (hmax.2 y hy).trans hd2⟩)
    have hlen : heights.length + 1 = (d.1 :: b :: rest).length := by
      have := h1
      unfold histogram at this
      rw [if_neg (by simp), if_neg (by simpa using hch.imp fun _ _ hh => hh.le)] at this
      cases this
      rw [List.length_zipWith, binCounts_length]
      simp
    refine ⟨{ p with domain := some d, hists := p.hists ++ [(d.1 :: b :: rest, heights)] }, d.1 :: b :: rest, heights, d, ?_, rfl, rfl, by simp, hch, rfl, ?_, hlen, ?_, h3⟩
    · simp only [DistPlot.addRaw]
      rw [← hd, he, h1]
      rfl
    · rw [List.getLast?_eq_some_getLast (by simp), hlast]
    · intro i hi
      have hg := congrArg (fun l => l[i]?) h2
      simp only [List.getElem?_map] at hg
      rw [binCounts_get (x :: xs) _ i hi] at hg
      have hi' : i < heights.length := by omega
      rw [List.getElem?_zipWith, List.getElem?_zipWith] at hg
      have e1 : (b :: rest)[i]? = some ((d.1 :: b :: rest)[i + 1]) := by
        rw [← List.getElem?_cons_succ (a := d.1)]; exact List.getElem?_eq_getElem hi
      rw [List.getElem?_eq_getElem hi', e1, List.getElem?_eq_getElem (by omega : i < (d.1 :: b :: rest).length)] at hg
      simp only [Option.map_some, Option.some.injEq] at hg
      rw [List.getD_eq_getElem?_getD, List.getElem?_eq_getElem hi', Option.getD_some]
      exact hg

/-- **C146, negative.** With 4 to 15 samples the histogram has no bars; with fewer it raises. -/
theorem C146_few_counterexample (geo : F → F → Nat → List F) (p : DistPlot F) (hlin : p.logX = false) {samples : List F} :
    (samples.length < 4 → ∃ e, p.addRaw geo samples = .error e) ∧
    (4 ≤ samples.length → samples.length < 16 → ∃ p' edge, p.addRaw geo samples = .ok p' ∧ p'.hists = p.hists ++ [([edge], [])]) := by
  constructor
  · intro h
    cases samples with
    | nil => exact ⟨_, rfl⟩
    | cons x xs =>
      have hk : Nat.sqrt (x :: xs).length / 2 = 0 := by
        have : Nat.sqrt (x :: xs).length < 2 := Nat.sqrt_lt.2 (by omega)
        omega
      refine ⟨.indexError, ?_⟩
      simp only [DistPlot.addRaw]
      rw [hk]
      simp [grid, hlin, linspace, histogram, Except.map]
  · intro h4 h16
    cases samples with
    | nil => simp at h4
    | cons x xs =>
      have hk : Nat.sqrt (x :: xs).length / 2 = 1 := by
        have h1 : Nat.sqrt (x :: xs).length < 4 := Nat.sqrt_lt.2 (by omega)
        have h2 : 2 ≤ Nat.sqrt (x :: xs).length := Nat.le_sqrt.2 (by omega)
        omega
      simp only [DistPlot.addRaw]
      rw [hk]
      simp [grid, hlin, linspace, histogram, binCounts, Except.map]

/-- Sixteen samples between 0 and 3, after a distribution on (-1, 2): one bin from -1 to 3. -/
example : ((DistPlot.mk none false .off (some (-1, 2)) [] [] [] [] [] : DistPlot ℚ).addRaw (fun _ _ _ => [])
      [0, 1, 2, 3, 0, 1, 2, 3, 0, 1, 2, 3, 0, 1, 2, 3]).map (fun p => p.hists) = .ok [([-1, 3], [1/4])] := by decide +kernel

end MLMC
