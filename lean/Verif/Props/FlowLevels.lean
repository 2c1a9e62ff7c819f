import Verif.Spec.FlowLevels
import Verif.Props.FlowSim
/-
C114: levels of flow simulations are chained through the common files.
-/
namespace MLMC.Flow
open Gm
variable {K : Type} [Field K] [LinearOrder K] [IsStrictOrderedRing K]

/-- The names found in the template, for a step. -/
def FlowObj.usedAt (o : FlowObj K) (h : K) : List String :=
  (Sub.substituteYaml o.template o.fieldText ["conductivity".toList] (o.meshFile h) (o.str (o.timeFactor * h)) (o.str (o.timeFactor * h * h))).2.map String.ofList

/-- The configuration of a level with the given steps. -/
def FlowObj.cfgAt (o : FlowObj K) (fine coarse : K) : FlowCfg K :=
  ⟨fine, coarse, o.commonDir fine, if coarse ≠ 0 then some (o.commonDir coarse) else none, some (o.usedAt fine)⟩

omit [IsStrictOrderedRing K] [LinearOrder K] in
theorem commonDir_inj (o : FlowObj K) {a b : K} (h : o.commonDir a = o.commonDir b) : o.str a = o.str b := by
  unfold FlowObj.commonDir joinPath at h
  have h := List.append_cancel_left h
  injection h with _ h
  rw [List.append_assoc, List.append_assoc] at h
  exact List.append_cancel_right (List.append_cancel_left h)

theorem levelInstance_eq {o : FlowObj K} (hcl : o.clean = true) {m : Mesh K} (dirs : CommonDirs K) (used : Option (List String)) (fine coarse : K) (hm : o.gmsh fine = some m) (hc : Complete m)
    (hi : IdsAgree m) (hp : Planar m) :
    o.levelInstance dirs used fine coarse =
      (Dict.set (Dict.set dirs (o.commonDir fine) {}) (o.commonDir fine) ⟨some m, some (o.inputFile fine)⟩, .ok (o.cfgAt fine coarse)) := by
  obtain ⟨rm, h1, _⟩ := planar_mesh m hc hi hp
  unfold FlowObj.levelInstance forceMkdir
  simp only [hcl, if_true, hm, Dict.get?_set_self, Option.bind_some, h1]
  rfl

theorem createLevels_eq {o : FlowObj K} (hcl : o.clean = true) {hs : List K} {mesh : K → Mesh K} (hm : o.Meshes hs mesh) (hstr : ∀ a ∈ hs, ∀ b ∈ hs, o.str a = o.str b → a = b) :
    ∀ (rest : List K), (∀ h ∈ rest, h ∈ hs) → ∀ (dirs : CommonDirs K) (used : Option (List String)) (prev : K), ∃ dirs' cs, o.createLevels dirs used prev rest = (dirs', .ok cs) ∧
      cs.length = rest.length ∧ (∀ (l : Nat) (h p : K), rest[l]? = some h → (prev :: rest)[l]? = some p → cs[l]? = some (o.cfgAt h p)) ∧
      (∀ h ∈ rest, Dict.get? dirs' (o.commonDir h) = some ⟨some (mesh h), some (o.inputFile h)⟩) ∧
      ∀ p, p ∉ rest.map o.commonDir → Dict.get? dirs' p = Dict.get? dirs p := by
  intro rest
  induction rest with
  | nil => intro _ dirs used prev; exact ⟨dirs, [], rfl, rfl, by simp, by simp, fun _ _ => rfl⟩
  | cons h rest ih =>
    intro hsub dirs used prev
    have hh := hsub h (by simp)
    obtain ⟨c1, c2, c3⟩ := hm.complete h hh
    have e := levelInstance_eq hcl dirs used h prev (hm.made h hh) c1 c2 c3
    obtain ⟨dirs', cs, h1, h2, h3, h4, h5⟩ := ih (fun x hx => hsub x (by simp [hx])) (Dict.set (Dict.set dirs (o.commonDir h) {}) (o.commonDir h) ⟨some (mesh h), some (o.inputFile h)⟩)
      (o.cfgAt h prev).used h
    refine ⟨dirs', o.cfgAt h prev :: cs, ?_, by simp [h2], ?_, ?_, ?_⟩
    · unfold FlowObj.createLevels
      simp only [e, h1]
    · intro l x p hx hp
      cases l with
      | zero => simp at hx hp; subst hx hp; rfl
      | succ l => simp only [List.getElem?_cons_succ] at hx hp ⊢; exact h3 l x p hx hp
    · intro x hx
      by_cases hmem : o.commonDir x ∈ rest.map o.commonDir
      · obtain ⟨y, hy, hxy⟩ := List.mem_map.1 hmem
        obtain rfl := hstr y (hsub y (by simp [hy])) x (hsub x hx) (commonDir_inj o hxy)
        exact h4 y hy
      · rw [h5 _ hmem]
        rcases List.mem_cons.1 hx with rfl | hx
        · rw [Dict.get?_set_self]
        · exact absurd (List.mem_map.2 ⟨x, hx, rfl⟩) hmem
    · intro p hp
      simp only [List.map_cons, List.mem_cons, not_or] at hp
      rw [h5 p hp.2, Dict.get?_set_ne _ _ hp.1, Dict.get?_set_ne _ _ hp.1]

theorem usedAt_mem (o : FlowObj K) (ht : "<conductivity>".toList <:+: o.template) (h : K) : "conductivity" ∈ o.usedAt h := by
  obtain ⟨used, h1, h2⟩ := C76_prepared_partial o.template o.fieldText (o.meshFile h) (o.str (o.timeFactor * h)) (o.str (o.timeFactor * h * h)) ht
  unfold levelUsedParams at h1
  rw [if_pos rfl] at h1
  injection h1 with h1
  unfold FlowObj.usedAt
  rw [h1]
  exact h2

/-- `C114` (partial): a `FlowSim` object that prepares the common files (`clean`), with non-zero steps of different texts, meshes as the generator makes them for a plane domain, and the field in the
template: creating the levels succeeds, and for every realization `φ` of the field a sample of level 0 returns the run at its step and zeros, and a sample of level `l + 1` returns the run at
its own step and the run at the step of level `l`.  These are the same runs: fine results of level `l` and coarse results of level `l + 1` are the same function of the realization
(same mesh, same input file). Other directories are not touched. -/
theorem C114_levels_share_runs_partial (o : FlowObj K) (hcl : o.clean = true) (hs : List K) (hne : ∀ h ∈ hs, h ≠ 0) (hstr : ∀ a ∈ hs, ∀ b ∈ hs, o.str a = o.str b → a = b)
    (mesh : K → Mesh K) (hm : o.Meshes hs mesh) (ht : "<conductivity>".toList <:+: o.template) (dirs : CommonDirs K) (used : Option (List String)) :
    ∃ dirs' levels, o.createLevels dirs used 0 hs = (dirs', .ok levels) ∧ levels.length = hs.length ∧
      (∀ p, p ∉ hs.map o.commonDir → Dict.get? dirs' p = Dict.get? dirs p) ∧
      ∀ (flow : Sub.Str → Mesh K → Solver K) (draw : Nat → Nat → List (List K) → List K) (φ : List K → K), (∀ pts, draw 0 0 pts = pts.map φ) →
      ∀ (d : Dir K), Dict.get? d balanceFile = none →
        (∀ h c, hs[0]? = some h → levels[0]? = some c → c.sample flow dirs' draw d = (o.runAt flow h (mesh h) φ).map fun f => (f, List.replicate f.length 0)) ∧
        ∀ (l : Nat) (h h' : K) (c : FlowCfg K), hs[l]? = some h → hs[l + 1]? = some h' → levels[l + 1]? = some c →
          c.sample flow dirs' draw d = (o.runAt flow h' (mesh h') φ).bind fun f => (o.runAt flow h (mesh h) φ).map fun g => (f, g) := by
  obtain ⟨dirs', cs, h1, h2, h3, h4, h5⟩ := createLevels_eq hcl hm hstr hs (fun _ h => h) dirs used 0
  refine ⟨dirs', cs, h1, h2, h5, fun flow draw φ hφ d hd => ⟨fun h c a1 a2 => ?_, fun l h h' c a1 a2 a3 => ?_⟩⟩
  · have hmem := List.mem_of_getElem? a1
    obtain ⟨c1, c2, c3⟩ := hm.complete h hmem
    have hc := h3 0 h 0 a1 rfl
    rw [a2] at hc
    injection hc with hc
    subst hc
    unfold FlowCfg.sample FlowObj.cfgAt
    simp only [ne_eq, not_true_eq_false, if_false, h4 h hmem, Option.getD_some]
    rw [C63_one_level_partial _ _ draw φ hφ _ (usedAt_mem o ht h) _ _ d hd c1 c2 c3]
    rfl
  · have hmem := List.mem_of_getElem? a1
    have hmem' := List.mem_of_getElem? a2
    obtain ⟨c1, c2, c3⟩ := hm.complete h hmem
    obtain ⟨d1, d2, d3⟩ := hm.complete h' hmem'
    have hc := h3 (l + 1) h' h a2 (by simpa using a1)
    rw [a3] at hc
    injection hc with hc
    subst hc
    unfold FlowCfg.sample FlowObj.cfgAt
    simp only [ne_eq, hne h hmem, not_false_iff, if_true, h4 h hmem, h4 h' hmem', Option.getD_some]
    rw [C63_same_realization_partial _ _ draw φ hφ _ (usedAt_mem o ht h') h (hne h hmem) _ _ d hd d1 d2 d3 c1 c2 c3 (hm.groups h' hmem' h hmem)]
    rfl

/-- `C114` is false for an object that does not prepare the files (the default of `clean`) in an empty work directory: no level can be created. -/
theorem C114_counterexample_default (o : FlowObj K) (hcl : o.clean = false) (used : Option (List String)) (h : K) (hs : List K) :
    (o.createLevels [] used 0 (h :: hs)).2 = .error .other := by
  have : o.levelInstance [] used h 0 = (Dict.set [] (o.commonDir h) {}, .error .other) := by
    unfold FlowObj.levelInstance forceMkdir
    simp only [hcl, Bool.false_eq_true, if_false, Dict.get?]
    rw [Dict.get?_set_self]
    rfl
  unfold FlowObj.createLevels
  rw [this]

/-! ### A concrete case: two levels on the unit square -/

/-- Steps 1 and 1/2 with two and four elements. -/
def exObj : FlowObj ℚ where
  clean := true
  workDir := "w".toList
  template := "conductivity: <conductivity>, mesh: <mesh_file>".toList
  timeFactor := 1
  fieldText := fun n => "!F ".toList ++ n
  str := fun h => if h = 1 then ['1'] else ['x']
  gmsh := fun h => if h = 1 then some coarseSquare else some fineSquare

theorem exMeshes : exObj.Meshes [1, 1 / 2] (fun h => if h = 1 then coarseSquare else fineSquare) where
  made := by intro h hh; simp only [exObj]; split <;> rfl
  complete := by
    intro h hh
    split
    · exact ⟨square_complete _ (by decide) (by decide), square_agree _, coarseSquare_planar⟩
    · exact ⟨square_complete _ (by decide) (by decide), square_agree _, fineSquare_planar⟩
  groups := by intro h _ h' _; split <;> split <;> rfl

/-- All hypotheses of `C114_levels_share_runs_partial` are met. -/
example : ∃ dirs' levels, exObj.createLevels [] none 0 [1, 1 / 2] = (dirs', .ok levels) ∧ levels.length = 2 := by
  obtain ⟨dirs', levels, h1, h2, _⟩ := C114_levels_share_runs_partial exObj rfl [1, 1 / 2] (by decide +kernel) (by decide +kernel) _ exMeshes (by decide +kernel) [] none
  exact ⟨dirs', levels, h1, h2⟩

/-- With the sum of the values as outflow and `φ(x, y) = y`, level 1 returns the sums over four and two elements, and level 0 the latter. -/
example : (match exObj.createLevels [] none 0 [1, 1 / 2] with
    | (dirs, .ok [c0, c1]) => (c0.sample (fun _ _ => sumSolver) dirs (fun _ _ pts => pts.map fun p => p.getD 1 0) [], c1.sample (fun _ _ => sumSolver) dirs (fun _ _ pts => pts.map fun p => p.getD 1 0) [])
    | _ => (.error .other, .error .other)) = (.ok ([1], [0]), .ok ([16 / 9], [1])) := by
  decide +kernel

end MLMC.Flow
