import Verif.Lemmas.Settle
/-
The choice of `find_best_route` is optimal.
-/
set_option linter.unusedSimpArgs false
set_option linter.unusedVariables false
set_option linter.unusedSectionVars false
namespace Babel
open Spec

/-- The smoothed metric of the route has been computed at this time, to be `v`. -/
def At (c : Cfg) (s : St) (k : PKey) (n : NeighId) (v : Nat) : Prop :=
  ∃ r, findRoute s k n = some r ∧ r.smoothed = v ∧ r.smoothedTime = s.now.sec ∧
    ∀ rnd, (smoothedMetric c.halfLife s.now.sec rnd r).1 = v

theorem at_smooth {c : Cfg} {s : St} {k : PKey} {n : NeighId} {r : Route} (h : findRoute s k n = some r) :
    At c (smoothRoute c s k n).2 k n (smoothRoute c s k n).1 := by
  refine ⟨_, smoothRoute_find h, rfl, (congrArg Timeval.sec (frame_smooth c s k n).now).symm, fun rnd => ?_⟩
  rw [(frame_smooth c s k n).now, smoothRoute_val h]
  exact smoothedMetric_idem _ _ _ _ _ _ rfl rfl rfl

theorem At.smooth {c : Cfg} {s : St} {k : PKey} {n : NeighId} {v : Nat} (h : At c s k n v) (m : NeighId) :
    At c (smoothRoute c s k m).2 k n v := by
  obtain ⟨r, h1, h2, h3, h4⟩ := h
  have hn := (frame_smooth c s k m).now
  by_cases hm : m = n
  · subst hm
    have : (smoothRoute c s k m).1 = v := by rw [smoothRoute_val h1]; exact h4 _
    refine ⟨_, smoothRoute_find h1, this, (congrArg Timeval.sec hn).symm, fun rnd => ?_⟩
    rw [hn, this]
    have h5 := h4 rnd
    have : ({ r with smoothed := v, smoothedTime := s.now.sec } : Route) = r := by
      rw [← h2, ← h3]
    rw [this]; exact h5
  · refine ⟨r, ?_, h2, by rw [hn]; exact h3, by rw [hn]; exact h4⟩
    rw [findRoute_smooth, h1]
    have := (findRoute_mem h1).2.2
    simp only [Option.map_some]
    rw [if_neg]
    rw [this]; simpa using fun h => hm h.symm

theorem At.val {c : Cfg} {s : St} {k : PKey} {n : NeighId} {v : Nat} (h : At c s k n v) :
    (smoothRoute c s k n).1 = v := by
  obtain ⟨r, h1, h2, h3, h4⟩ := h
  rw [smoothRoute_val h1]; exact h4 _

/-- Among the neighbours `P` seen so far, `best` is the best acceptable one. -/
def BestOf (c : Cfg) (k : PKey) (fe : Bool) (ex : Option NeighId) (P : List NeighId) (best : Option NeighId)
    (s : St) : Prop :=
  (∀ b, best = some b → Acceptable s k fe ex b) ∧
  ∀ n ∈ P, Acceptable s k fe ex n → ∃ b, best = some b ∧
    (n = b ∨ ∃ v w, At c s k b v ∧ At c s k n w ∧ v ≤ w)

theorem Acceptable.frame_inv {s s' : St} (h : Frame s s') {k fe ex n} (a : Acceptable s' k fe ex n) :
    Acceptable s k fe ex n := by
  obtain ⟨r, hr, ha⟩ := a
  obtain ⟨r', hr', e⟩ := h.route_inv hr
  refine ⟨r', hr', ?_⟩
  rw [← ha]
  unfold routeAcceptable
  have e := e
  rw [h.expired e, h.feasible e, core_neigh e]

theorem bestScan_spec (c : Cfg) (k : PKey) (fe : Bool) (ex : Option NeighId) (l P : List NeighId)
    (b : Option NeighId) (s : St) (hb : BestOf c k fe ex P b s) :
    BestOf c k fe ex (P ++ l) (bestScan c k fe ex l b s).1 (bestScan c k fe ex l b s).2 := by
  induction l generalizing P b s with
  | nil => simpa [bestScan] using hb
  | cons m l ih =>
    have hsplit : P ++ m :: l = (P ++ [m]) ++ l := by simp
    rw [hsplit]
    have skip : ¬ Acceptable s k fe ex m → BestOf c k fe ex (P ++ [m]) b s := by
      intro hna
      refine ⟨hb.1, fun n hn ha => ?_⟩
      rcases List.mem_append.1 hn with h | h
      · exact hb.2 n h ha
      · simp at h; subst h; exact absurd ha hna
    unfold bestScan
    split
    · next e => exact ih _ _ _ (skip (by rintro ⟨r, hr, -⟩; rw [e] at hr; simp at hr))
    · next r e =>
      split
      · next ha =>
        refine ih _ _ _ (skip ?_)
        rintro ⟨r', hr', h⟩
        rw [e] at hr'; cases hr'
        rw [h] at ha; simp at ha
      · next ha =>
        have hm : Acceptable s k fe ex m := ⟨r, e, by simpa using ha⟩
        split
        · refine ih _ _ _ ⟨?_, ?_⟩
          · intro b' e'; cases e'; exact hm
          · intro n hn hacc
            rcases List.mem_append.1 hn with h | h
            · obtain ⟨b', h1, -⟩ := hb.2 n h hacc; simp at h1
            · simp at h; exact ⟨m, rfl, .inl h⟩
        · next b' =>
          have hf := (frame_smooth c s k m).trans (frame_smooth c (smoothRoute c s k m).2 k b')
          have hb' := hb.1 b' rfl
          have atm : At c (smoothRoute c (smoothRoute c s k m).2 k b').2 k m (smoothRoute c s k m).1 :=
            (at_smooth e).smooth b'
          obtain ⟨rb, hrb, -⟩ := hb'.frame (frame_smooth c s k m)
          have atb : At c (smoothRoute c (smoothRoute c s k m).2 k b').2 k b'
              (smoothRoute c (smoothRoute c s k m).2 k b').1 := at_smooth hrb
          refine ih _ _ _ ⟨?_, ?_⟩
          · intro n' e'
            split at e'
            · cases e'; exact hm.frame hf
            · cases e'; exact hb'.frame hf
          · intro n hn hacc
            have hacc0 := hacc.frame_inv hf
            -- relation of `n` to the old best
            have key : n = m ∨ n = b' ∨ ∃ w, At c (smoothRoute c (smoothRoute c s k m).2 k b').2 k n w ∧
                (smoothRoute c (smoothRoute c s k m).2 k b').1 ≤ w := by
              rcases List.mem_append.1 hn with h | h
              · obtain ⟨b2, h1, h2⟩ := hb.2 n h hacc0
                cases h1
                rcases h2 with h2 | ⟨v, w, h2, h3, h4⟩
                · exact .inr (.inl h2)
                · right; right
                  refine ⟨w, (h3.smooth m).smooth b', ?_⟩
                  rw [(h2.smooth m).val]; exact h4
              · simp at h; exact .inl h
            split
            · next hlt =>
              refine ⟨m, rfl, ?_⟩
              rcases key with h | h | ⟨w, h1, h2⟩
              · exact .inl h
              · subst h; exact .inr ⟨_, _, atm, atb, Nat.le_of_lt hlt⟩
              · exact .inr ⟨_, _, atm, h1, by omega⟩
            · next hlt =>
              refine ⟨b', rfl, ?_⟩
              rcases key with h | h | ⟨w, h1, h2⟩
              · subst h; exact .inr ⟨_, _, atb, atm, by omega⟩
              · exact .inl h
              · exact .inr ⟨_, _, atb, h1, h2⟩

theorem mem_slot_of_find {s : St} {k : PKey} {n : NeighId} {r : Route} (h : findRoute s k n = some r) :
    n ∈ (slotOf s.routes k).map (·.neigh) := by
  have hm := findRoute_mem h
  exact List.mem_map.2 ⟨r, List.mem_filter.2 ⟨hm.1, by simp [hm.2.1]⟩, hm.2.2⟩

theorem findBest_best (c : Cfg) (s : St) (k : PKey) (fe : Bool) (ex : Option NeighId) :
    BestOf c k fe ex ((slotOf s.routes k).map (·.neigh)) (findBest c s k fe ex).1 (findBest c s k fe ex).2 := by
  have := bestScan_spec c k fe ex ((slotOf s.routes k).map (·.neigh)) [] none s ⟨by simp, by simp⟩
  simpa [findBest] using this

end Babel
