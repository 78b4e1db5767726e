import Verif.Lemmas.Time
import Verif.Lemmas.Except
import Verif.Lemmas.Interp
import Verif.Lemmas.Primes

/-! Helper lemmas about the time processors. -/

namespace Resistics

theorem chanIndex_append (chans : List String) (x c : String) :
    chanIndex (chans ++ [x]) c = if x = c then some chans.length else chanIndex chans c := by
  simp [chanIndex, List.zipIdx_append, List.foldl_append]

theorem chanIndex_none {chans : List String} {c : String} (h : c ∉ chans) : chanIndex chans c = none := by
  induction chans using List.reverseRecOn with
  | nil => rfl
  | append_singleton l x ih =>
    rw [chanIndex_append]
    simp only [List.mem_append, List.mem_singleton, not_or] at h
    rw [if_neg (fun e => h.2 e.symm)]
    exact ih h.1

theorem chanIndex_some {chans : List String} {c : String} (h : c ∈ chans) :
    ∃ i, chanIndex chans c = some i ∧ chans[i]? = some c ∧ ∀ j, i < j → chans[j]? ≠ some c := by
  induction chans using List.reverseRecOn with
  | nil => simp at h
  | append_singleton l x ih =>
    rw [chanIndex_append]
    by_cases hx : x = c
    · refine ⟨l.length, by rw [if_pos hx], by simp [hx], ?_⟩
      intro j hj
      rw [List.getElem?_eq_none (by simp; omega)]
      simp
    · rw [if_neg hx]
      simp only [List.mem_append, List.mem_singleton] at h
      obtain ⟨i, h1, h2, h3⟩ := ih (h.resolve_right (fun e => hx e.symm))
      have hi : i < l.length := by
        by_contra hc
        rw [List.getElem?_eq_none (by omega)] at h2
        simp at h2
      refine ⟨i, h1, by rw [List.getElem?_append_left hi]; exact h2, ?_⟩
      intro j hj
      by_cases hjl : j < l.length
      · rw [List.getElem?_append_left hjl]; exact h3 j hj
      · by_cases hje : j = l.length
        · subst hje; simp [hx]
        · rw [List.getElem?_eq_none (by simp; omega)]; simp

theorem chanIndex_nodup {chans : List String} (h : chans.Nodup) (i : ℕ) (hi : i < chans.length) :
    chanIndex chans chans[i] = some i := by
  obtain ⟨j, h1, h2, -⟩ := chanIndex_some (List.getElem_mem hi)
  have hj : j < chans.length := by
    by_contra hc
    rw [List.getElem?_eq_none (by omega)] at h2
    simp at h2
  rw [List.getElem?_eq_getElem hj] at h2
  have := (List.Nodup.getElem_inj_iff h).mp (Option.some.inj h2)
  rw [h1, this]

theorem chanIndex_lt {chans : List String} {c : String} {i : ℕ} (h : chanIndex chans c = some i) :
    i < chans.length := by
  by_cases hc : c ∈ chans
  · obtain ⟨j, h1, h2, -⟩ := chanIndex_some hc
    rw [h1] at h
    simp only [Option.some.injEq] at h
    subst h
    by_contra hc
    rw [List.getElem?_eq_none (by omega)] at h2
    simp at h2
  · rw [chanIndex_none hc] at h; simp at h

theorem perChanVector_length (p : PerChan) (n : ℚ) (op : ℚ → ℚ → ℚ) (chans : List String) :
    (perChanVector p n op chans).length = chans.length := by
  cases p with
  | scalar x => simp [perChanVector]
  | dict d =>
    simp only [perChanVector]
    have : ∀ (cs : List String) (v : List ℚ), (cs.foldl (perChanStep d chans) v).length = v.length := by
      intro cs
      induction cs with
      | nil => simp
      | cons c cs ih =>
        intro v
        rw [List.foldl_cons, ih]
        unfold perChanStep
        split <;> simp
    rw [this]; simp

theorem perChanVector_dict (d : List (String × ℚ)) (n : ℚ) (op : ℚ → ℚ → ℚ) (chans : List String)
    (hnd : chans.Nodup) (i : ℕ) (hi : i < chans.length) :
    (perChanVector (.dict d) n op chans)[i]? = some ((d.lookup chans[i]).getD n) := by
  simp only [perChanVector]
  have key : ∀ (cs : List String) (v : List ℚ), v.length = chans.length → (∀ c ∈ cs, c ∈ chans) →
      (cs.foldl (perChanStep d chans) v)[i]? = if chans[i] ∈ cs then some ((d.lookup chans[i]).getD (v[i]?.getD n)) else v[i]? := by
    intro cs
    induction cs with
    | nil => intro v _ _; simp
    | cons c cs ih =>
      intro v hv hcs
      rw [List.foldl_cons]
      obtain ⟨k, hk⟩ := List.mem_iff_getElem.mp (hcs c (by simp))
      obtain ⟨hk', hkc⟩ := hk
      have hci : chanIndex chans c = some k := by rw [← hkc]; exact chanIndex_nodup hnd k hk'
      have hcs' : ∀ c ∈ cs, c ∈ chans := fun x hx => hcs x (by simp [hx])
      cases hl : d.lookup c with
      | none =>
        simp only [perChanStep, hci, hl]
        rw [ih v hv hcs']
        by_cases hm : chans[i] ∈ cs
        · simp [hm]
        · rw [if_neg hm]
          by_cases he : chans[i] = c
          · rw [if_pos (by simp [he]), he, hl]
            rw [List.getElem?_eq_getElem (by omega)]; simp
          · rw [if_neg (by simp [he, hm])]
      | some x =>
        simp only [perChanStep, hci, hl]
        rw [ih (v.set k x) (by simp [hv]) hcs']
        by_cases he : chans[i] = c
        · have hik : i = k := (List.Nodup.getElem_inj_iff hnd).mp (by rw [he, hkc])
          subst hik
          rw [if_pos (by simp [he] : chans[i] ∈ c :: cs), he, hl]
          simp [hv, hi]
        · have hik : k ≠ i := by
            rintro rfl; exact he hkc
          rw [List.getElem?_set_ne hik]
          simp [he]
  rw [key chans _ (by simp) (fun c hc => hc)]
  simp [List.getElem?_replicate, hi]

end Resistics
