import Verif.Spec.CloudAccum

/-!
# Helper lemmas for cloud accumulation
-/

namespace Mcl3dl
namespace CloudAccum

variable {K : Type u} [DecidableEq K] {M : Type v}

/-! ## Helper lemmas about the caller's buffer -/

theorem buffer_append (a b : List (Ev M)) :
    buffer (a ++ b) = b.foldl bufStep (buffer a) := by
  simp only [buffer, List.foldl_append]

@[simp] theorem buffer_acc (a : List (Ev M)) (m : M) (ok : Bool) :
    buffer (a ++ [.acc m ok]) = if ok then buffer a ++ [m] else buffer a := by
  rw [buffer_append]; cases ok <;> rfl
@[simp] theorem buffer_proc (a : List (Ev M)) : buffer (a ++ [.proc]) = buffer a := by
  rw [buffer_append]; rfl
@[simp] theorem buffer_clr (a : List (Ev M)) : buffer (a ++ [.clr]) = [] := by
  rw [buffer_append]; rfl

theorem batchesFrom_append (b : List M) (a c : List (Ev M)) :
    batchesFrom b (a ++ c) = batchesFrom b a ++
      batchesFrom (a.foldl bufStep b) c := by
  induction a generalizing b with
  | nil => rfl
  | cons e a ih =>
    rcases e with ⟨m, _ | _⟩ | _ | _ <;> simp [batchesFrom, bufStep, ih]

theorem batches_append (a c : List (Ev M)) :
    batches (a ++ c) = batches a ++ batchesFrom (buffer a) c := batchesFrom_append _ _ _

/-- Invariant connecting the private record with the caller's buffer. -/
structure Inv (key : M → K) (s : St K) (b : List M) : Prop where
  keys : s.keys = b.map key
  cnt : ∀ h t, b = h :: t → s.cnt = (b.filter (fun x => key x = key h)).length
  cnt0 : b = [] → s.cnt = 0

/-- The trace appended by one push, and preservation of the invariant. -/
theorem push_step (cfg : Cfg) (key : M → K) (ok : List (Ev M) → M → Bool) (s : St K)
    (tr : List (Ev M)) (m : M) (hI : Inv key s (buffer tr)) (hmax : 0 < cfg.accumMax)
    [Decidable (Complete cfg key (buffer tr) m)] :
    ∃ s' r, push cfg s (key m) m (recorder ok) tr =
        .ok (s', tr ++ pushSpec (Complete cfg key (buffer tr) m) m r) ∧
      Inv key s' (buffer (tr ++ pushSpec (Complete cfg key (buffer tr) m) m r)) := by
  obtain ⟨hk, hc, hc0⟩ := hI
  obtain ⟨cnt, keys⟩ := s
  simp only at hk hc hc0
  subst hk
  by_cases hlt : (buffer tr).length < cfg.accumMax
  · by_cases hfront : (buffer tr).length = 0 ∨ (buffer tr).head?.map key ≠ some (key m)
    · have hnc : ¬ Complete cfg key (buffer tr) m := by
        rintro (h | ⟨h, t, hb, hkey, -⟩)
        · omega
        · rcases hfront with hf | hf
          · simp [hb] at hf
          · exact hf (by simp [hb, hkey])
      refine ⟨?_, ok tr m, ?_⟩
      · exact if ok tr m then ⟨if (buffer tr).length = 0 then 1 else cnt, (buffer tr).map key ++ [key m]⟩
          else St.init
      · constructor
        · have hfront2 : (((buffer tr).map key).length = 0 ∨
            ((buffer tr).map key).head? ≠ some (key m)) := by
            simpa using hfront
          have hlt2 : ((buffer tr).map key).length < cfg.accumMax := by simpa using hlt
          cases hok : ok tr m <;>
            simp only [push, hlt2, hfront2, recorder, hok, pushSpec, hnc, reset,
              if_true, if_false] <;> simp
        · cases hok : ok tr m
          · simp only [pushSpec, hnc, if_false, Bool.false_eq_true]
            rw [show tr ++ [Ev.acc m false, Ev.clr] = (tr ++ [Ev.acc m false]) ++ [Ev.clr] by simp]
            simp only [buffer_clr]
            exact ⟨rfl, by simp, fun _ => rfl⟩
          · simp only [pushSpec, hnc, if_false, if_true, buffer_acc]
            refine ⟨by simp, ?_, by simp⟩
            intro h t hb
            by_cases he : buffer tr = []
            · simp [he] at hb
              simp [he, hb.1]
            · obtain ⟨h', t', hb'⟩ := List.exists_cons_of_ne_nil he
              have hh : h' = h := by simp [hb'] at hb; exact hb.1
              subst hh
              have hne : key m ≠ key h' := by
                rcases hfront with hf | hf
                · simp [hb'] at hf
                · intro hx; exact hf (by simp [hb', hx])
              simp only [List.length_eq_zero_iff, he, if_false]
              rw [List.filter_append, hc h' t' hb']
              simp [hne]
    · have hfront' : ¬((buffer tr).length = 0) ∧ (buffer tr).head?.map key = some (key m) := by
        constructor
        · exact fun h => hfront (Or.inl h)
        · exact Decidable.not_not.mp fun h => hfront (Or.inr h)
      obtain ⟨h, t, hb⟩ := List.exists_cons_of_ne_nil
        (fun h => hfront'.1 (by simp [h]) : buffer tr ≠ [])
      have hkey : key h = key m := by simpa [hb] using hfront'.2
      have hcnt := hc h t hb
      rw [hkey] at hcnt
      by_cases hacc : cnt < cfg.accum
      · have hnc : ¬ Complete cfg key (buffer tr) m := by
          rintro (hx | ⟨h2, t2, hb2, -, hx⟩) <;> omega
        refine ⟨if ok tr m then ⟨cnt + 1, (buffer tr).map key ++ [key m]⟩ else St.init,
          ok tr m, ?_, ?_⟩
        · have hfront2 : ¬ (((buffer tr).map key).length = 0 ∨
            ((buffer tr).map key).head? ≠ some (key m)) := by
            simpa using hfront
          have hlt2 : ((buffer tr).map key).length < cfg.accumMax := by simpa using hlt
          cases hok : ok tr m <;>
            simp only [push, hlt2, hfront2, hacc, recorder, hok, pushSpec, hnc, reset,
              if_true, if_false] <;> simp
        · cases hok : ok tr m
          · simp only [pushSpec, hnc, if_false, Bool.false_eq_true]
            rw [show tr ++ [Ev.acc m false, Ev.clr] = (tr ++ [Ev.acc m false]) ++ [Ev.clr] by simp]
            simp only [buffer_clr]
            exact ⟨rfl, by simp, fun _ => rfl⟩
          · simp only [pushSpec, hnc, if_false, if_true, buffer_acc]
            refine ⟨by simp, ?_, by simp⟩
            intro h3 t3 hb3
            have : h = h3 := by simp [hb] at hb3; exact hb3.1
            subst this
            rw [List.filter_append, hkey]
            simp [hcnt]
      · have hcpl : Complete cfg key (buffer tr) m := by
          refine Or.inr ⟨h, t, hb, hkey, by omega⟩
        have hfront2 : ¬ (((buffer tr).map key).length = 0 ∨
            ((buffer tr).map key).head? ≠ some (key m)) := by simpa using hfront
        have hlt2 : ((buffer tr).map key).length < cfg.accumMax := by simpa using hlt
        refine ⟨if ok (tr ++ [.proc] ++ [.clr]) m then ⟨1, [key m]⟩ else St.init,
          ok (tr ++ [.proc] ++ [.clr]) m, ?_, ?_⟩
        · simp only [push, hlt2, hfront2, hacc, if_true, if_false, processAndRestart, recorder,
            reset, St.init, pushSpec, hcpl]
          cases hok : ok (tr ++ [.proc] ++ [.clr]) m <;> simp
        · simp only [pushSpec, hcpl, if_true]
          rw [show ∀ r, tr ++ [Ev.proc, Ev.clr, Ev.acc m r] =
            (tr ++ [Ev.proc]) ++ [Ev.clr] ++ [Ev.acc m r] by simp]
          rw [buffer_acc, buffer_clr]
          cases hok : ok (tr ++ [.proc] ++ [.clr]) m
          · exact ⟨rfl, by simp, fun _ => rfl⟩
          · refine ⟨by simp, ?_, by simp⟩
            intro h3 t3 hb3
            simp at hb3
            simp [hb3.1]
  · have hcpl : Complete cfg key (buffer tr) m := Or.inl (by omega)
    have hne : buffer tr ≠ [] := by intro h; simp [h] at hlt; omega
    obtain ⟨h, t, hb⟩ := List.exists_cons_of_ne_nil hne
    refine ⟨if ok (tr ++ [.proc] ++ [.clr]) m then ⟨1, [key m]⟩ else St.init,
      ok (tr ++ [.proc] ++ [.clr]) m, ?_, ?_⟩
    · have hlt2 : ¬ ((buffer tr).map key).length < cfg.accumMax := by simpa using hlt
      simp only [push, hlt2, if_false, processAndRestart, recorder, reset, St.init, pushSpec,
        hcpl, if_true]
      simp only [hb, List.map_cons]
      cases hok : ok (tr ++ [.proc] ++ [.clr]) m <;> simp
    · simp only [pushSpec, hcpl, if_true]
      rw [show ∀ r, tr ++ [Ev.proc, Ev.clr, Ev.acc m r] =
        (tr ++ [Ev.proc]) ++ [Ev.clr] ++ [Ev.acc m r] by simp]
      rw [buffer_acc, buffer_clr]
      cases hok : ok (tr ++ [.proc] ++ [.clr]) m
      · exact ⟨rfl, by simp, fun _ => rfl⟩
      · refine ⟨by simp, ?_, by simp⟩
        intro h3 t3 hb3
        simp at hb3
        simp [hb3.1]

end CloudAccum
end Mcl3dl
