import Verif.Spec.Process
import Verif.Props.Polling
/-! # C154 Scripts wait for all samples and know their machine -/
namespace MLMC.Process
variable {V S : Type}

/-! ## Commands -/

/-- C154: only `run` starts anew, and only with the flag it removes results; the other commands append to the existing ones. `renew` alone asks for failed samples (if `run` has the default `renew=False`). -/
theorem C154_commands (c : Command) (clean : Bool) :
    ((start c clean).append = true ↔ c ≠ .run) ∧ ((start c clean).clean = true ↔ c = .run ∧ clean = true) ∧ ((start c clean).renews false = true ↔ c = .renew) := by
  cases c <;> cases clean <;> decide

/-- Witness against C154: with the default of the base class every command renews failed samples. -/
theorem C154_renew_counterexample (c : Command) (clean : Bool) : (start c clean).renews true = true := by
  cases c <;> cases clean <;> decide

/-! ## Waiting -/

theorem round_collected (store : S → PoolAnswer V → S) (timeout : Option ℚ) : ∀ (ss : List (S × List (PoolAnswer V × ℚ))), (∀ s ∈ ss, ∀ a ∈ s.2, 0 ≤ a.1.nRunning) →
    ∀ n ss', collectRound store timeout ss = some (n, ss') → 0 ≤ n ∧
      List.Forall₂ (fun s s' => ∃ used, s.2 = used ++ s'.2 ∧ s'.1 = (used.map (·.1)).foldl store s.1) ss ss' ∧ (n ≤ 0 → List.Forall₂ (Collected store) ss ss') := by
  intro ss
  induction ss with
  | nil =>
    intro _ n ss' h
    simp only [collectRound, Option.some.injEq, Prod.mk.injEq] at h
    obtain ⟨rfl, rfl⟩ := h
    exact ⟨le_refl _, .nil, fun _ => .nil⟩
  | cons s ss ih =>
    intro h0 n ss' h
    rw [collectRound] at h
    cases ha : askPool store timeout s.2 s.1 with
    | none => rw [ha] at h; simp at h
    | some r =>
      rw [ha] at h
      cases hr : collectRound store timeout ss with
      | none => rw [hr] at h; simp at h
      | some rs =>
        rw [hr] at h
        simp only [Option.some.injEq, Prod.mk.injEq] at h
        obtain ⟨rfl, rfl⟩ := h
        obtain ⟨m, rs⟩ := rs
        obtain ⟨k, g', env'⟩ := r
        obtain ⟨h1, h2, h3⟩ := ih (fun s hs => h0 s (by simp [hs])) m rs hr
        obtain ⟨a1, a2⟩ := C06_polling store timeout s.2 s.1
        by_cases ht : ∃ t, timeout = some t ∧ t ≤ 0
        · obtain ⟨t, ht, ht0⟩ := ht
          rw [a1 t ht ht0] at ha
          simp only [Option.some.injEq, Prod.mk.injEq] at ha
          obtain ⟨rfl, rfl, rfl⟩ := ha
          simp only
          exact ⟨by omega, .cons ⟨[], rfl, rfl⟩ h2, fun h => absurd h (by omega)⟩
        · obtain ⟨used, last, el, b1, b2, b3, -, -⟩ := a2 (fun t ht' => by by_contra hc; exact ht ⟨t, ht', not_lt.1 hc⟩) _ _ _ ha
          have hlast : 0 ≤ k := by
            rw [b3]
            exact h0 s (by simp) (last, el) (by rw [b1]; simp)
          simp only
          refine ⟨by omega, .cons ⟨used ++ [(last, el)], by simp [b1], by simp [b2]⟩ h2, fun h => .cons ⟨used, last, el, b1, b2, by omega⟩ (h3 (by omega))⟩

/-- C154: when `all_collect` returns, every pool said that nothing is running, and everything that any of the pools returned was stored. -/
theorem C154_all_collected (store : S → PoolAnswer V → S) (timeout : Option ℚ) (rounds : Nat) (ss ss' : List (S × List (PoolAnswer V × ℚ)))
    (h0 : ∀ s ∈ ss, ∀ a ∈ s.2, 0 ≤ a.1.nRunning) (h : allCollect store timeout rounds ss = some ss') : List.Forall₂ (Collected store) ss ss' := by
  induction rounds generalizing ss with
  | zero => simp [allCollect] at h
  | succ rounds ih =>
    rw [allCollect] at h
    cases hr : collectRound store timeout ss with
    | none => rw [hr] at h; simp at h
    | some r =>
      rw [hr] at h
      simp only at h
      obtain ⟨-, h2, h3⟩ := round_collected store timeout ss h0 _ _ hr
      split at h
      · have hpre : ∀ s' ∈ r.2, ∀ a ∈ s'.2, 0 ≤ a.1.nRunning := by
          clear h3 h hr
          generalize r.2 = l at h2
          induction h2 with
          | nil => simp
          | cons hx _ ih =>
            obtain ⟨used, hu, -⟩ := hx
            intro s' hs' a ha
            rcases List.mem_cons.1 hs' with rfl | hs'
            · exact h0 _ (List.mem_cons_self ..) a (by rw [hu]; simp [ha])
            · exact ih (fun s hs => h0 s (by simp [hs])) s' hs' a ha
        have := ih r.2 hpre h
        clear h h3 hr hpre ih
        generalize r.2 = l at h2 this
        clear h0
        induction h2 generalizing ss' with
        | nil => cases this; exact .nil
        | cons hx _ ih =>
          cases this with
          | cons hc ht =>
            refine .cons ?_ (ih _ ht)
            obtain ⟨used, hu, hg⟩ := hx
            obtain ⟨used', last, el, c1, c2, c3⟩ := hc
            exact ⟨used ++ used', last, el, by rw [hu, c1, List.append_assoc], by rw [c2, hg]; simp, c3⟩
      · rename_i hn
        simp only [Option.some.injEq] at h
        subst h
        exact h3 (by omega)

/-- The answers of a pool show no running samples from some number on that is at most `r`, and there are enough of them. -/
def Ready (r : Nat) (env : List (PoolAnswer V × ℚ)) : Prop := ∃ j ≤ r, (∀ a ∈ env.drop j, a.1.nRunning = 0) ∧ j + r + 1 ≤ env.length

theorem ask_ready (store : S → PoolAnswer V → S) (timeout : Option ℚ) (ht : ∀ t, timeout = some t → 0 < t) (r : Nat) (env : List (PoolAnswer V × ℚ)) (g : S) (h : Ready r env) :
    ∃ n g' env', askPool store timeout env g = some (n, g', env') ∧ (r = 0 → n = 0) ∧ (0 < r → Ready (r - 1) env') := by
  obtain ⟨j, hj, hz, hlen⟩ := h
  have hs : (askPool store timeout env g).isSome = true := by
    apply C06_polling_returns
    refine ⟨env[j]'(by omega), List.getElem_mem _, .inl (le_of_eq (hz _ ?_))⟩
    rw [List.drop_eq_getElem_cons (by omega)]
    exact List.mem_cons_self ..
  obtain ⟨⟨n, g', env'⟩, ha⟩ := Option.isSome_iff_exists.1 hs
  refine ⟨n, g', env', ha, ?_⟩
  obtain ⟨used, last, el, b1, b2, b3, b4, b5⟩ := (C06_polling store timeout env g).2 ht _ _ _ ha
  -- answers before the last one show running samples
  have hu : used.length ≤ j := by
    by_contra hc
    have hm : used[j]'(by omega) ∈ env.drop j := by
      rw [b1, List.drop_append_of_le_length (by omega), List.drop_eq_getElem_cons (by omega)]
      exact List.mem_append_left _ (List.mem_cons_self ..)
    have h1 := hz _ hm
    have h2 : used[j].1.nRunning > 0 := by
      cases timeout with
      | none => exact (b4 rfl).2 _ (List.getElem_mem _)
      | some t => exact ((b5 t rfl).2 _ (List.getElem_mem _)).1
    omega
  have hl : env.length = used.length + (env'.length + 1) := by rw [b1]; simp
  constructor
  · intro h0
    subst h0
    have hj0 : j = 0 := by omega
    subst hj0
    rw [b3]
    exact hz (last, el) (by rw [b1]; simp)
  · intro hr
    have henv' : env' = env.drop (used.length + 1) := by
      rw [b1, List.drop_append]
      simp
    by_cases hc : used.length + 1 ≤ j
    · refine ⟨j - (used.length + 1), by omega, ?_, by omega⟩
      intro a ha'
      apply hz
      rw [henv', List.drop_drop] at ha'
      rwa [show used.length + 1 + (j - (used.length + 1)) = j by omega] at ha'
    · refine ⟨0, by omega, ?_, by omega⟩
      intro a ha'
      apply hz
      rw [henv', List.drop_zero] at ha'
      have : used.length = j := by omega
      rw [this] at ha'
      exact List.mem_of_mem_drop (i := 1) (by rw [List.drop_drop]; exact ha')

theorem round_ready (store : S → PoolAnswer V → S) (timeout : Option ℚ) (ht : ∀ t, timeout = some t → 0 < t) (r : Nat) : ∀ (ss : List (S × List (PoolAnswer V × ℚ))),
    (∀ s ∈ ss, Ready r s.2) → ∃ n ss', collectRound store timeout ss = some (n, ss') ∧ (r = 0 → n = 0) ∧ (0 < r → ∀ s ∈ ss', Ready (r - 1) s.2) := by
  intro ss
  induction ss with
  | nil => exact fun _ => ⟨0, [], rfl, fun _ => rfl, by simp⟩
  | cons s ss ih =>
    intro h
    obtain ⟨n, g', env', h1, h2, h3⟩ := ask_ready store timeout ht r s.2 s.1 (h s (by simp))
    obtain ⟨m, ss', h4, h5, h6⟩ := ih fun s hs => h s (by simp [hs])
    refine ⟨n + m, (g', env') :: ss', by rw [collectRound, h1]; simp only; rw [h4], fun h => by rw [h2 h, h5 h]; rfl, fun h s hs => ?_⟩
    rcases List.mem_cons.1 hs with rfl | hs
    · exact h3 h
    · exact h6 h s hs

/-- C154: `all_collect` returns: if from answer `k` on the pools of all samplers say that nothing is running, it takes at most `k + 1` turns. -/
theorem C154_returns (store : S → PoolAnswer V → S) (timeout : Option ℚ) (ht : ∀ t, timeout = some t → 0 < t) (k : Nat) (ss : List (S × List (PoolAnswer V × ℚ)))
    (h : ∀ s ∈ ss, (∀ a ∈ s.2.drop k, a.1.nRunning = 0) ∧ 2 * k + 1 ≤ s.2.length) : (allCollect store timeout (k + 1) ss).isSome = true := by
  have key : ∀ (r : Nat) (ss : List (S × List (PoolAnswer V × ℚ))), (∀ s ∈ ss, Ready r s.2) → (allCollect store timeout (r + 1) ss).isSome = true := by
    intro r
    induction r with
    | zero =>
      intro ss h
      obtain ⟨n, ss', h1, h2, -⟩ := round_ready store timeout ht 0 ss h
      simp [allCollect, h1, h2 rfl]
    | succ r ih =>
      intro ss h
      obtain ⟨n, ss', h1, -, h3⟩ := round_ready store timeout ht (r + 1) ss h
      rw [allCollect, h1]
      simp only
      split
      · exact ih ss' (h3 (by omega))
      · rfl
  exact key k ss fun s hs => ⟨k, le_refl _, (h s hs).1, by have := (h s hs).2; omega⟩

/-! ## The machine -/

theorem pieces_ne (p : List Char) : pieces p ≠ [] := by
  cases p with
  | nil => simp [pieces]
  | cons c p =>
    rw [pieces]
    split
    · simp
    · split <;> simp

theorem pieces_slash (p q : List Char) : pieces (p ++ '/' :: q) = pieces p ++ pieces q := by
  induction p with
  | nil => simp [pieces]
  | cons c p ih =>
    rw [List.cons_append, pieces, pieces, ih]
    by_cases hc : c = '/'
    · simp [hc]
    · rw [if_neg hc, if_neg hc]
      cases hp : pieces p with
      | nil => exact absurd hp (pieces_ne p)
      | cons x xs => simp

theorem pieces_plain {x : List Char} (h : '/' ∉ x) : pieces x = [x] := by
  induction x with
  | nil => rfl
  | cons c x ih =>
    simp only [List.mem_cons, not_or] at h
    rw [pieces, if_neg (Ne.symm h.1), ih h.2]

/-- One part of a path. -/
def walk (names : List (List Char)) (x : List Char) : List (List Char) :=
  if x = [] ∨ x = ['.'] then names else if x = ['.', '.'] then names.tail else x :: names

theorem resolve_foldl (xs : List (List Char)) : ∀ names, resolve names xs = (xs.foldl walk names).reverse := by
  induction xs with
  | nil => intro names; rfl
  | cons x xs ih =>
    intro names
    rw [resolve, List.foldl_cons, walk]
    split
    · exact ih _
    · split <;> exact ih _

theorem leads_slash {p : List Char} {ns : List (List Char)} (h : Leads p ns) : p.head? = some '/' := by
  induction h with
  | root => rfl
  | slash _ ih => rw [List.head?_append, ih]; rfl
  | @name p _ _ _ _ ih => cases p <;> simp_all
  | @here p _ _ ih => cases p <;> simp_all
  | @up p _ _ ih => cases p <;> simp_all

theorem leads_resolve {p : List Char} {ns : List (List Char)} (h : Leads p ns) : resolve [] (pieces p) = ns := by
  rw [resolve_foldl]
  have hs : ∀ p : List Char, (pieces (p ++ ['/'])).foldl walk [] = (pieces p).foldl walk [] := by
    intro p
    rw [pieces_slash, List.foldl_append]
    simp [pieces, walk]
  induction h with
  | root => decide
  | slash _ ih => rw [hs]; exact ih
  | name _ hx ih =>
    rw [hs] at ih
    rw [pieces_slash, List.foldl_append, pieces_plain hx.2.1, List.foldl_cons, List.foldl_nil, walk, if_neg (by rintro (h | h); exacts [hx.1 h, hx.2.2.1 h]), if_neg hx.2.2.2, List.reverse_cons, ih]
  | here _ ih =>
    rw [hs] at ih
    rw [pieces_slash, List.foldl_append]
    simpa [pieces, walk] using ih
  | up _ ih =>
    rw [hs] at ih
    rw [pieces_slash, List.foldl_append, ← ih]
    simp [pieces, walk]

theorem leads_names {p : List Char} {ns : List (List Char)} (h : Leads p ns) : ∀ x ∈ ns, IsName x := by
  induction h with
  | root => simp
  | slash _ ih => exact ih
  | name _ hx ih => intro y hy; rcases List.mem_append.1 hy with h | h; exacts [ih y h, by simp at h; exact h ▸ hx]
  | here _ ih => exact ih
  | up _ ih => exact fun x hx => ih x (List.dropLast_subset _ hx)

/-- A path without detours. -/
def pathOf (names : List (List Char)) : List Char := names.flatMap ('/' :: ·)

theorem joined_path : ∀ names : List (List Char), names ≠ [] → '/' :: joined names = pathOf names
  | [], h => absurd rfl h
  | [x], _ => by simp [joined, pathOf]
  | x :: y :: xs, _ => by
    have := joined_path (y :: xs) (by simp)
    rw [joined, this]
    simp [pathOf]

theorem split_path (names : List (List Char)) (hn : ∀ x ∈ names, IsName x) {x : List Char} (hx : IsName x) :
    splitPath (pathOf (names ++ [x])) = (if names = [] then ['/'] else pathOf names, x) := by
  have hp : pathOf (names ++ [x]) = pathOf names ++ '/' :: x := by simp [pathOf]
  have hx' : ∀ c ∈ x.reverse, decide (c ≠ '/') = true := by
    intro c hc
    simp only [decide_eq_true_eq]
    rintro rfl
    exact hx.2.1 (by simpa using hc)
  have h1 : (pathOf names ++ '/' :: x).reverse = x.reverse ++ '/' :: (pathOf names).reverse := by simp
  unfold splitPath
  rw [hp, h1, List.takeWhile_append_of_pos hx', List.dropWhile_append_of_pos hx']
  simp only [ne_eq, not_true_eq_false, decide_false, Bool.false_eq_true, not_false_eq_true, List.takeWhile_cons_of_neg, List.append_nil, List.reverse_reverse, List.dropWhile_cons_of_neg,
    List.reverse_cons, List.all_append, List.all_cons, List.all_nil, decide_true, Bool.and_true, Prod.mk.injEq, and_true]
  rcases List.eq_nil_or_concat names with rfl | ⟨ns, y, rfl⟩
  · simp [pathOf]
  · have hy := hn y (by simp)
    have hne : ns.concat y ≠ [] := by simp
    rw [if_neg hne]
    obtain ⟨z, zs, hz⟩ : ∃ z zs, y.reverse = z :: zs := by
      cases h : y.reverse with
      | nil => exact absurd (by simpa using h) hy.1
      | cons z zs => exact ⟨z, zs, rfl⟩
    have hz' : z ≠ '/' := by
      rintro rfl
      have : '/' ∈ y.reverse := by rw [hz]; simp
      exact hy.2.1 (by simpa using this)
    have hpr : (pathOf (ns.concat y)).reverse = z :: (zs ++ '/' :: (pathOf ns).reverse) := by
      simp [pathOf, hz]
    have hall : (pathOf (ns.concat y)).all (fun c => decide (c = '/')) = false := by
      rw [← List.all_reverse, hpr]
      simp [hz']
    rw [hall]
    have hd : List.dropWhile (fun c => decide (c = '/')) ('/' :: (pathOf (ns.concat y)).reverse) = (pathOf (ns.concat y)).reverse := by
      rw [List.dropWhile_cons_of_pos (by simp), hpr, List.dropWhile_cons_of_neg (by simpa using hz')]
    simp only [Bool.false_eq_true, if_false, List.reverse_append, List.reverse_cons, List.reverse_nil, List.nil_append, List.singleton_append]
    rw [hd, List.reverse_reverse]

theorem path_ne_root {names : List (List Char)} (hne : names ≠ []) (hn : ∀ x ∈ names, IsName x) : pathOf names ≠ ['/'] := by
  cases names with
  | nil => exact absurd rfl hne
  | cons x xs =>
    intro h
    have := (hn x (by simp)).1
    simp [pathOf] at h
    exact this h.1

theorem topDir_step (steps : Nat) (root : List Char) (tail : Option (List Char)) (h : root ≠ ['/']) :
    topDir (steps + 1) root tail = topDir steps (splitPath root).1 (some (splitPath root).2) := by
  cases tail <;> simp [topDir, h]

theorem topDir_path : ∀ (n : Nat) (names : List (List Char)), names.length = n → (hne : names ≠ []) → (∀ x ∈ names, IsName x) → ∀ steps tail, n < steps →
    topDir steps (pathOf names) tail = some (.ok (names.head hne)) := by
  intro n
  induction n with
  | zero => intro names hl hne; exact absurd (List.length_eq_zero_iff.1 hl) hne
  | succ n ih =>
    intro names hl hne hn steps tail hs
    obtain ⟨steps, rfl⟩ : ∃ k, steps = k + 1 := ⟨steps - 1, by omega⟩
    rw [topDir_step _ _ _ (path_ne_root hne hn)]
    rcases List.eq_nil_or_concat names with rfl | ⟨ns, y, rfl⟩
    · exact absurd rfl hne
    · have hnn : ns.concat y = ns ++ [y] := by simp
      simp only [hnn] at hl hn hne ⊢
      rw [split_path ns (fun x hx => hn x (by simp [hx])) (hn y (by simp))]
      by_cases h0 : ns = []
      · subst h0
        obtain ⟨steps, rfl⟩ : ∃ k, steps = k + 1 := ⟨steps - 1, by simp at hl; omega⟩
        simp [topDir]
      · simp only [if_neg h0]
        rw [ih ns (by simp at hl; exact hl) h0 (fun x hx => hn x (by simp [hx])) steps _ (by omega)]
        simp [List.head_append, h0]

theorem slashes_one {p : List Char} (h : ¬ TwoSlashes p) : slashes p = ['/'] := by
  unfold slashes
  split
  · exact absurd (by simp [TwoSlashes]) h
  · split
    · rfl
    · rename_i hc
      exact absurd (by simp [TwoSlashes, Ne.symm hc]) h
  · rfl

theorem slashes_two {p : List Char} (h : TwoSlashes p) : slashes p = ['/', '/'] := by
  obtain ⟨⟨q, rfl⟩, h2⟩ := h
  cases q with
  | nil => rfl
  | cons c q =>
    have : c ≠ '/' := by rintro rfl; exact h2 (by simp)
    simp [slashes, this]

theorem abspath_leads {cwd p : List Char} {ns : List (List Char)} (h : Leads p ns) : abspath cwd p = slashes p ++ joined ns := by
  unfold abspath
  simp only [leads_slash h, if_true, leads_resolve h]

/-- C154: the settings for Metacentrum are used exactly if the first directory of the path, after `.`, `..` and repeated slashes are resolved, is `storage`. -/
theorem C154_environment_partial (cwd p : List Char) (ns : List (List Char)) (h : Leads p ns) (h2 : ¬ TwoSlashes p) (hne : ns ≠ []) (steps : Nat) (hs : ns.length < steps) :
    environment steps cwd p = some (.ok (if ns.head hne = "storage".toList then metacentrum else otherMachine)) := by
  unfold environment
  rw [abspath_leads h, slashes_one h2, List.singleton_append, joined_path ns hne, topDir_path _ ns rfl hne (leads_names h) steps none hs]
  rfl

/-- C154, relative paths: the same as the absolute path in the current directory. -/
theorem C154_relative (cwd p : List Char) (hc : cwd.getLast? ≠ some '/') (hc0 : cwd.head? = some '/') (hp : p.head? ≠ some '/') (steps : Nat) :
    environment steps cwd p = environment steps cwd (cwd ++ '/' :: p) := by
  unfold environment abspath
  have : (cwd ++ '/' :: p).head? = some '/' := by rw [List.head?_append, hc0]; rfl
  simp only [hp, hc, this, if_false, if_true]

/-- Witness against C154: for a path that leads to the root directory the settings raise. -/
theorem C154_root_counterexample (cwd p : List Char) (h : Leads p []) (h2 : ¬ TwoSlashes p) (steps : Nat) : environment (steps + 1) cwd p = some (.error .unboundLocal) := by
  unfold environment
  rw [abspath_leads h, slashes_one h2]
  rfl

theorem dropWhile_nil {α : Type} {f : α → Bool} {l : List α} : l.dropWhile f = [] ↔ ∀ c ∈ l, f c = true := by
  induction l with
  | nil => simp
  | cons a l ih =>
    rw [List.dropWhile_cons]
    split
    · rename_i h; simp [ih, h]
    · rename_i h; simp [h]

theorem split_two {p : List Char} (h : ['/', '/'] <+: p) : ['/', '/'] <+: (splitPath p).1 := by
  obtain ⟨q, rfl⟩ := h
  have h1 : ((['/', '/'] ++ q).reverse.dropWhile (· ≠ '/')).reverse = ['/', '/'] ++ (q.reverse.dropWhile (· ≠ '/')).reverse := by
    rw [List.reverse_append, List.dropWhile_append]
    split
    · rename_i he
      simp only [List.isEmpty_iff] at he
      rw [he]
      simp
    · simp
  unfold splitPath
  simp only [h1]
  generalize (q.reverse.dropWhile (· ≠ '/')).reverse = r
  split
  · exact ⟨r, rfl⟩
  · rename_i hall
    rw [List.reverse_append, List.dropWhile_append]
    split
    · rename_i he
      exfalso
      apply hall
      simp only [List.isEmpty_iff] at he
      rw [dropWhile_nil] at he
      simp only [List.all_eq_true]
      intro c hc
      rcases List.mem_append.1 hc with h | h
      · have : c = '/' := by simpa using h
        simp [this]
      · exact he c (by simpa using h)
    · exact ⟨(r.reverse.dropWhile (· = '/')).reverse, by simp⟩

/-- Witness against C154: for a path with two slashes at the beginning the settings are never found. -/
theorem C154_two_slashes_counterexample (cwd p : List Char) (h : TwoSlashes p) (steps : Nat) : environment steps cwd p = none := by
  have key : ∀ (steps : Nat) (root : List Char) (tail : Option (List Char)), ['/', '/'] <+: root → topDir steps root tail = none := by
    intro steps
    induction steps with
    | zero => intro _ _ _; rfl
    | succ steps ih =>
      intro root tail h
      rw [topDir_step _ _ _ (by rintro rfl; simp at h)]
      exact ih _ _ (split_two h)
  have hp : p.head? = some '/' := by obtain ⟨q, rfl⟩ := h.1; rfl
  unfold environment abspath
  simp only [hp, if_true]
  rw [key steps _ none (by rw [slashes_two h]; exact ⟨_, rfl⟩)]
  rfl

/-- C154: every absolute path leads to the root directory or to one with names, so one of the three theorems before applies to it. -/
theorem C154_paths (p : List Char) (h : p.head? = some '/') : ∃ ns, Leads p ns := by
  obtain ⟨n, hn⟩ : ∃ n, p.length = n := ⟨_, rfl⟩
  induction n using Nat.strong_induction_on generalizing p with
  | _ n ih =>
    have hm : '/' ∈ p.reverse := by
      rw [List.mem_reverse]
      exact List.mem_of_mem_head? h
    obtain ⟨as, bs, he, ha⟩ := List.eq_append_cons_of_mem hm
    have hp : p = bs.reverse ++ '/' :: as.reverse := by
      have := congrArg List.reverse he
      simpa using this
    have hx : '/' ∉ as.reverse := by simpa using ha
    generalize as.reverse = x at hp hx
    generalize bs.reverse = q at hp
    obtain ⟨ns, hl⟩ : ∃ ns, Leads (q ++ ['/']) ns := by
      cases q with
      | nil => exact ⟨[], .root⟩
      | cons c q =>
        have hc : c = '/' := by rw [hp] at h; simpa using h
        subst hc
        obtain ⟨ns, hl⟩ := ih ('/' :: q).length (by rw [← hn, hp]; simp) ('/' :: q) rfl rfl
        exact ⟨ns, .slash hl⟩
    rw [hp]
    by_cases h0 : x = []
    · exact ⟨ns, h0 ▸ hl⟩
    by_cases h1 : x = ['.']
    · exact ⟨ns, h1 ▸ .here hl⟩
    by_cases h2 : x = ['.', '.']
    · exact ⟨ns.dropLast, h2 ▸ .up hl⟩
    exact ⟨_, .name hl ⟨h0, hx, h1, h2⟩⟩

/-! ## Examples -/
namespace Ex

theorem name1 : IsName "storage".toList := by unfold IsName; decide
theorem name2 : IsName "home".toList := by unfold IsName; decide
/-- `/storage/../storage//home/`. -/
theorem path : Leads "/storage/../storage//home/".toList ["storage".toList, "home".toList] :=
  .slash (.name (p := "/storage/../storage/".toList) (.slash (.slash (.name (p := "/storage/..".toList) (.slash (.up (p := "/storage".toList) (.slash (.name (p := []) .root name1)))) name1))) name2)
example : environment 3 "/home".toList "/storage/../storage//home/".toList = some (.ok metacentrum) :=
  C154_environment_partial _ _ _ path (by simp [TwoSlashes]) (by simp) 3 (by simp)
example : environment 9 "/storage/x".toList "y".toList = some (.ok metacentrum) := by decide +kernel
example (steps : Nat) : environment steps "/storage/x".toList "y".toList = environment steps "/storage/x".toList "/storage/x/y".toList := C154_relative _ _ (by decide) (by decide) (by decide) steps
example : environment 5 "/home".toList "/".toList = some (.error .unboundLocal) := C154_root_counterexample _ _ .root (by simp [TwoSlashes]) 4
example (steps : Nat) : environment steps "/home".toList "//storage/home".toList = none := C154_two_slashes_counterexample _ _ (by simp [TwoSlashes]) steps

def answer (n : ℤ) (ids : List SampleId) : PoolAnswer Nat := ⟨[(0, ids.map fun i => (i, 0))], [], n, []⟩
/-- Two samplers; the storage is the list of identifiers. -/
def store (g : List SampleId) (a : PoolAnswer Nat) : List SampleId := g ++ a.succ.flatMap fun x => x.2.map (·.1)
def samplers : List (List SampleId × List (PoolAnswer Nat × ℚ)) :=
  [([], [(answer 2 ["a".toList], 1), (answer 1 ["b".toList], 1), (answer 0 ["c".toList], 1), (answer 0 [], 1), (answer 0 [], 1)]),
   ([], [(answer 0 ["d".toList], 1), (answer 0 [], 1), (answer 0 [], 1), (answer 0 [], 1), (answer 0 [], 1)])]
example : (allCollect store (some (1 / 10)) 3 samplers).map (fun l => l.map (·.1)) = some [["a".toList, "b".toList, "c".toList], ["d".toList]] := by decide +kernel
example : (allCollect store (some (1 / 10)) 3 samplers).isSome = true := C154_returns store _ (by rintro t ⟨rfl⟩; norm_num) 2 samplers (by decide +kernel)
example (ss' : List (List SampleId × List (PoolAnswer Nat × ℚ))) (h : allCollect store (some (1 / 10)) 3 samplers = some ss') : List.Forall₂ (Collected store) samplers ss' :=
  C154_all_collected store _ 3 samplers ss' (by decide +kernel) h

end Ex

end MLMC.Process
