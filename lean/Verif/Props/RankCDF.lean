import Verif.Lemmas.RankCDF
import Verif.Props.Rescale

/-! # C27: `RankCDF` -/

namespace Irt

variable {d : ℕ}

/-- The constructor accepts a missing list of distributions, a single distribution or one distribution per
latent variable, and nothing else. -/
theorem C27_accepts (normal : ℝ → ℝ) (sample : Thetas d) (dists : Option (List (ℝ → ℝ))) :
    (∃ r, RankCDF.create normal sample dists = .ok r) ↔
      ∀ ds, dists = some ds → ds.length = 1 ∨ ds.length = d := by
  unfold RankCDF.create
  match dists with
  | none => simp
  | some ds =>
    simp only
    by_cases h : d ≠ ds.length ∧ ds.length ≠ 1
    · rw [if_pos h]
      constructor
      · rintro ⟨r, hr⟩; cases hr
      · intro hh
        rcases hh ds rfl with e | e
        · exact absurd e h.2
        · exact absurd e.symm h.1
    · rw [if_neg h]
      constructor
      · intro _ ds' e
        cases e
        by_contra hc
        push Not at hc
        exact h ⟨fun e => hc.2 e.symm, hc.1⟩
      · intro _
        by_cases h1 : ds.length = 1
        · exact ⟨_, if_pos h1⟩
        · exact ⟨_, if_neg h1⟩

/-- The distribution used for latent variable `k`. -/
def chosenDist (normal : ℝ → ℝ) (dists : Option (List (ℝ → ℝ))) (k : ℕ) : ℝ → ℝ :=
  match dists with
  | none => normal
  | some ds => if ds.length = 1 then ds.getD 0 id else ds.getD k id

/-- Every row is transformed by itself: latent variable `k` with score `x` becomes the quantile, at level
average rank / (n + 1), of the sample value closest to `x` (the smaller one when two are equally close). -/
theorem C27_value (normal : ℝ → ℝ) (sample : Thetas d) (hne : sample ≠ []) (dists : Option (List (ℝ → ℝ)))
    (r : RankCDF d) (hr : RankCDF.create normal sample dists = .ok r) :
    ∃ V : Fin d → ℝ → ℝ, (∀ k x, Closest (sample.map fun t => t k) x (V k x)) ∧
      ∀ θ, r.transform θ = .ok (θ.map fun t k => chosenDist normal dists k
        (averageRank (sample.map fun t => t k) (V k (t k)) / ((sample.length : ℝ) + 1))) := by
  have hfeat : r.nSamples = sample.length ∧
      (r.features = fun k => rankFeature sample.length (sample.map fun t => t k)) ∧
      ∀ k : Fin d, r.distributions.getD k id = chosenDist normal dists k := by
    unfold RankCDF.create at hr
    match dists, hr with
    | none, hr =>
      cases Except.ok.inj hr
      exact ⟨rfl, rfl, fun k => by
        show (List.replicate d normal).getD k id = normal
        simp⟩
    | some ds, hr =>
      simp only at hr
      by_cases h : d ≠ ds.length ∧ ds.length ≠ 1
      · rw [if_pos h] at hr; cases hr
      · rw [if_neg h] at hr
        by_cases h1 : ds.length = 1
        · rw [if_pos h1] at hr
          cases Except.ok.inj hr
          refine ⟨rfl, rfl, fun k => ?_⟩
          show (List.replicate d (ds.getD 0 id)).getD k id = chosenDist normal (some ds) k
          simp only [chosenDist, if_pos h1]
          rw [List.getD_eq_getElem?_getD, List.getElem?_replicate, if_pos k.2]; rfl
        · rw [if_neg h1] at hr
          cases Except.ok.inj hr
          refine ⟨rfl, rfl, fun k => ?_⟩
          show ds.getD k id = chosenDist normal (some ds) k
          simp only [chosenDist, if_neg h1]
  obtain ⟨h1, h2, h3⟩ := hfeat
  have hent : ∀ k x, ∃ v, Closest (sample.map fun t => t k) x v ∧ r.entry k x = .ok (chosenDist normal dists k
      (averageRank (sample.map fun t => t k) v / ((sample.length : ℝ) + 1))) := by
    intro k x
    obtain ⟨v, hv, he⟩ := r.entry_spec (sample.map fun t => t k) (by simpa using hne) k
      (by rw [h2, List.length_map]) (by rw [h1, List.length_map]) x
    exact ⟨v, hv, by rw [he, h3, List.length_map]⟩
  choose V hV hE using hent
  refine ⟨V, hV, fun θ => ?_⟩
  unfold RankCDF.transform
  apply mapM_ok
  intro t _
  have : (List.finRange d).mapM (fun k => r.entry k (t k)) = .ok ((List.finRange d).map fun k : Fin d =>
      chosenDist normal dists k
        (averageRank (sample.map fun t => t k) (V k (t k)) / ((sample.length : ℝ) + 1))) :=
    mapM_ok _ _ _ fun k _ => hE k (t k)
  rw [this, bind_ok]
  simp only [pure, Except.pure]
  congr 1
  funext k
  rw [List.getD_eq_getElem?_getD, List.getElem?_map]
  simp

/-- A sample respondent's score becomes the quantile of its own average rank. -/
theorem C27_training_scores (normal : ℝ → ℝ) (sample : Thetas d) (dists : Option (List (ℝ → ℝ)))
    (r : RankCDF d) (hr : RankCDF.create normal sample dists = .ok r) :
    r.transform sample = .ok (sample.map fun t k => chosenDist normal dists k
      (averageRank (sample.map fun u => u k) (t k) / ((sample.length : ℝ) + 1))) := by
  by_cases hne : sample = []
  · subst hne; rfl
  · obtain ⟨V, hV, hT⟩ := C27_value normal sample hne dists r hr
    rw [hT]
    congr 1
    apply List.map_congr_left
    intro t ht
    funext k
    have hmem : t k ∈ sample.map fun u => u k := List.mem_map_of_mem ht
    have h1 := (hV k (t k)).2.1 (t k) hmem
    rw [sub_self, abs_zero] at h1
    have : V k (t k) = t k := by
      have := abs_eq_zero.1 (le_antisymm h1 (abs_nonneg _))
      linarith
    rw [this]

/-- The quantile level is strictly inside (0, 1), so a continuous distribution gives a finite score. -/
theorem C27_level (normal : ℝ → ℝ) (sample : Thetas d) (hne : sample ≠ []) (dists : Option (List (ℝ → ℝ)))
    (r : RankCDF d) (hr : RankCDF.create normal sample dists = .ok r) :
    ∃ p : Fin d → ℝ → ℝ, (∀ k x, 1 / ((sample.length : ℝ) + 1) ≤ p k x ∧
        p k x ≤ (sample.length : ℝ) / ((sample.length : ℝ) + 1) ∧ 0 < p k x ∧ p k x < 1) ∧
      ∀ θ, r.transform θ = .ok (θ.map fun t k => chosenDist normal dists k (p k (t k))) := by
  obtain ⟨V, hV, hT⟩ := C27_value normal sample hne dists r hr
  refine ⟨fun k x => averageRank (sample.map fun t => t k) (V k x) / ((sample.length : ℝ) + 1), ?_, hT⟩
  intro k x
  obtain ⟨h1, h2⟩ := averageRank_bounds (hV k x).1
  rw [List.length_map] at h2
  have hn : (0 : ℝ) < (sample.length : ℝ) + 1 := by positivity
  refine ⟨div_le_div_of_nonneg_right h1 hn.le, div_le_div_of_nonneg_right h2 hn.le,
    div_pos (by linarith) hn, ?_⟩
  rw [div_lt_one hn]
  linarith

/-- The order of two scores is never reversed, and two different sample scores stay different. -/
theorem C27_order (normal : ℝ → ℝ) (sample : Thetas d) (hne : sample ≠ []) (dists : Option (List (ℝ → ℝ)))
    (r : RankCDF d) (hr : RankCDF.create normal sample dists = .ok r)
    (hmono : ∀ k : Fin d, StrictMonoOn (chosenDist normal dists k) (Set.Ioo 0 1)) :
    ∃ F : Fin d → ℝ → ℝ, (∀ k, Monotone (F k)) ∧
      (∀ k, ∀ t ∈ sample, ∀ u ∈ sample, t k < u k → F k (t k) < F k (u k)) ∧
      ∀ θ, r.transform θ = .ok (θ.map fun t k => F k (t k)) := by
  obtain ⟨V, hV, hT⟩ := C27_value normal sample hne dists r hr
  have hn : (0 : ℝ) < (sample.length : ℝ) + 1 := by positivity
  have hin : ∀ k x, averageRank (sample.map fun t => t k) (V k x) / ((sample.length : ℝ) + 1) ∈ Set.Ioo (0 : ℝ) 1 := by
    intro k x
    obtain ⟨h1, h2⟩ := averageRank_bounds (hV k x).1
    rw [List.length_map] at h2
    exact ⟨div_pos (by linarith) hn, by rw [div_lt_one hn]; linarith⟩
  have hself : ∀ k, ∀ t ∈ sample, V k (t k) = t k := by
    intro k t ht
    have h1 := (hV k (t k)).2.1 (t k) (List.mem_map_of_mem ht)
    rw [sub_self, abs_zero] at h1
    have := abs_eq_zero.1 (le_antisymm h1 (abs_nonneg _))
    linarith
  refine ⟨fun k x => chosenDist normal dists k
    (averageRank (sample.map fun t => t k) (V k x) / ((sample.length : ℝ) + 1)), ?_, ?_, hT⟩
  · intro k x y hxy
    exact (hmono k).monotoneOn (hin k x) (hin k y)
      (div_le_div_of_nonneg_right (averageRank_mono (closest_mono hxy (hV k x) (hV k y))) hn.le)
  · intro k t ht u hu htu
    apply (hmono k) (hin k _) (hin k _)
    rw [hself k t ht, hself k u hu]
    exact div_lt_div_of_pos_right (averageRank_lt (List.mem_map_of_mem ht) htu) hn

/-- An empty sample is accepted by the constructor but every nonempty call of `transform` then fails. -/
theorem C27_empty_sample (normal : ℝ → ℝ) (hd : 0 < d) (t : Fin d → ℝ) (θ : Thetas d) :
    ∃ r, RankCDF.create normal ([] : Thetas d) none = .ok r ∧ r.transform (t :: θ) = .error .indexError := by
  refine ⟨_, rfl, ?_⟩
  obtain ⟨e, rfl⟩ : ∃ e, d = e + 1 := ⟨d - 1, by omega⟩
  unfold RankCDF.transform
  rw [List.mapM_cons]
  have : (List.finRange (e + 1)).mapM (fun k => RankCDF.entry
      (⟨0, List.replicate (e + 1) normal, fun k => rankFeature 0 []⟩ : RankCDF (e + 1)) k (t k))
      = .error .indexError := by
    rw [List.finRange_succ, List.mapM_cons]
    rfl
  simp only [List.length_nil, List.map_nil] at this ⊢
  rw [this]
  rfl

/-- Neither `inverse` nor `jacobian` is available, and both say so. -/
theorem C27_not_invertible (r : RankCDF d) (θ : Thetas d) :
    r.inverse θ = .error .notImplemented ∧ r.jacobian θ = .error .notImplemented := ⟨rfl, rfl⟩

/-- Four respondents with a tie: the tied scores share rank 2.5, and 1.4 is treated as 1. -/
example : averageRank [3, 1, 1, 0] 1 = 5 / 2 ∧ averageRank [3, 1, 1, 0] 3 = 4 ∧ Closest [3, 1, 1, 0] 1.4 1 := by
  refine ⟨?_, ?_, ?_, ?_, ?_⟩
  · simp [averageRank]; norm_num
  · norm_num [averageRank]
  · simp
  · intro w hw
    simp only [List.mem_cons, List.not_mem_nil, or_false] at hw
    rcases hw with rfl | rfl | rfl | rfl <;> norm_num [abs_of_nonpos, abs_of_nonneg]
  · intro w hw
    simp only [List.mem_cons, List.not_mem_nil, or_false] at hw
    rcases hw with rfl | rfl | rfl | rfl <;> norm_num [abs_of_nonpos, abs_of_nonneg]

/-- A strictly increasing `icdf` exists, so the order theorem applies to some distribution. -/
example : ∃ r : RankCDF 2, RankCDF.create (fun p => p) [fun _ => 3, fun _ => 1] none = .ok r ∧
    ∀ k : Fin 2, StrictMonoOn (chosenDist (fun p => p) none k) (Set.Ioo 0 1) :=
  ⟨_, rfl, fun _ => strictMono_id.strictMonoOn _⟩

end Irt
