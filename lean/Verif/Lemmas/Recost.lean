import Verif.Lemmas.Store
import Verif.Lemmas.Only
import Verif.Lemmas.Sel
import Verif.Lemmas.Reach
import Verif.Spec.Recost
/-
The walks that update or retract the routes through a neighbour or an interface.
-/
set_option linter.unusedSimpArgs false
set_option linter.unusedVariables false
set_option linter.unusedSectionVars false
namespace Babel
open Spec

/-- The neighbours of the routes to a destination, in the order of the table. -/
abbrev slotNs (s : St) (k : PKey) : List NeighId := (slotOf s.routes k).map (·.neigh)

theorem succOf_ns (l : List Route) (pre post : List NeighId) (n : NeighId)
    (h : l.map (·.neigh) = pre ++ n :: post) (hn : n ∉ pre) : succOf l n = post.head? := by
  induction pre generalizing l with
  | nil =>
    cases l with
    | nil => simp at h
    | cons r l =>
      simp at h
      simp only [succOf]
      rw [if_pos (by simpa using h.1), ← h.2]
      cases l <;> rfl
  | cons a pre ih =>
    cases l with
    | nil => simp at h
    | cons r l =>
      simp at h hn
      simp only [succOf]
      rw [if_neg (by rw [h.1]; simpa using fun e => hn.1 e.symm)]
      exact ih l h.2 hn.2

/-- Once the rest of the slot is left alone, the walk ends there. -/
theorem walk_rest (act : St → NeighId → St) (k : PKey) (s : St) (fuel : Nat) (pre post : List NeighId)
    (h : slotNs s k = pre ++ post) (hn : (slotNs s k).Nodup) (ha : ∀ m ∈ post, act s m = s) :
    walkFrom act k fuel post.head? s = s := by
  induction fuel generalizing pre post with
  | zero => rfl
  | succ f ih =>
    cases post with
    | nil => rfl
    | cons m post =>
      simp only [List.head?_cons, walkFrom]
      rw [ha m (by simp)]
      have hm : m ∉ pre := by
        rw [h] at hn
        have := (List.nodup_append.1 hn).2.2
        intro hm; exact this m hm m (by simp) rfl
      rw [succOf_ns _ pre post m h hm]
      exact ih (pre ++ [m]) post (by rw [h]; simp) (fun x hx => ha x (by simp [hx]))

theorem walk_hit (act : St → NeighId → St) (k : PKey) (s : St) (n : NeighId) (fuel : Nat)
    (pre0 pre post : List NeighId) (h : slotNs s k = pre0 ++ (pre ++ n :: post)) (hn : (slotNs s k).Nodup)
    (ha : ∀ m ∈ pre, act s m = s) (hn' : (slotNs (act s n) k).Nodup)
    (ha' : ∀ m ∈ slotNs (act s n) k, m ≠ n → act (act s n) m = act s n)
    (hm' : n ∈ slotNs (act s n) k) (hf : pre.length < fuel) :
    walkFrom act k fuel (pre ++ n :: post).head? s = act s n := by
  induction pre generalizing pre0 fuel with
  | nil =>
    cases fuel with
    | zero => simp at hf
    | succ f =>
      simp only [List.nil_append, List.head?_cons, walkFrom]
      obtain ⟨a, b, e⟩ := List.append_of_mem hm'
      have hna : n ∉ a := by
        rw [e] at hn'
        have := (List.nodup_append.1 hn').2.2
        intro hm; exact this n hm n (by simp) rfl
      have hnb : n ∉ b := by
        rw [e] at hn'
        have := (List.nodup_append.1 hn').2.1
        exact (List.nodup_cons.1 this).1
      rw [succOf_ns _ a b n e hna]
      exact walk_rest act k _ f (a ++ [n]) b (by rw [e]; simp) hn' (fun m hm => ha' m (by rw [e]; simp [hm])
        (fun e => hnb (e ▸ hm)))
  | cons x pre ih =>
    cases fuel with
    | zero => simp at hf
    | succ f =>
      simp only [List.cons_append, List.head?_cons, walkFrom]
      rw [ha x (by simp)]
      have hx : x ∉ pre0 := by
        rw [h] at hn
        have := (List.nodup_append.1 hn).2.2
        intro hm; exact this x hm x (by simp) rfl
      rw [succOf_ns _ pre0 (pre ++ n :: post) x (by show slotNs s k = _; rw [h]; simp) hx]
      exact ih f (pre0 ++ [x]) (by rw [h]; simp) (fun m hm => ha m (by simp [hm])) (by simp at hf; omega)

theorem slotNs_nodup {c : Cfg} {s : St} (h : LInv c s.routes) (k : PKey) : (slotNs s k).Nodup := by
  have := h.one
  unfold OnePerNeigh at this
  unfold slotNs slotOf
  rw [List.nodup_iff_pairwise_ne, List.pairwise_map]
  refine (this.filter _).imp_of_mem ?_
  intro a b ha hb hab e
  have ha := (List.mem_filter.1 ha).2
  have hb := (List.mem_filter.1 hb).2
  simp at ha hb
  exact hab ⟨by rw [ha, hb], e⟩

theorem mem_slotNs {s : St} {k : PKey} {n : NeighId} : n ∈ slotNs s k ↔ (findRoute s k n).isSome = true := by
  unfold slotNs
  rw [List.mem_map]
  constructor
  · rintro ⟨r, hr, e⟩
    obtain ⟨h1, h2⟩ := mem_slotOf.1 hr
    unfold findRoute flatFind
    rw [List.find?_isSome]
    exact ⟨r, h1, by simp [h2, e]⟩
  · intro h
    cases hf : findRoute s k n with
    | none => rw [hf] at h; cases h
    | some r =>
      obtain ⟨h1, h2, h3⟩ := findRoute_mem hf
      exact ⟨r, mem_slotOf.2 ⟨h1, h2⟩, h3⟩

/-- The walk over a slot in which at most one route is treated: that route is treated, nothing else happens. -/
theorem walkSlot_one {c : Cfg} (f : St → PKey → NeighId → St) (p : NeighId → Bool) (fuel : Nat) (s : St) (k : PKey)
    (n : NeighId) (hi : LInv c s.routes) (hi' : LInv c (f s k n).routes)
    (hfs : ∀ m, (findRoute (f s k n) k m).isSome = (findRoute s k m).isSome)
    (hp : ∀ m ∈ slotNs s k, p m = true ↔ m = n) (hlen : (slotNs s k).length ≤ fuel) :
    walkSlot (fun s k m => if p m then f s k m else s) fuel s k =
      if (findRoute s k n).isSome then f s k n else s := by
  unfold walkSlot
  have hh : ((slotOf s.routes k).head?.map (·.neigh)) = (slotNs s k).head? := by
    unfold slotNs; cases slotOf s.routes k <;> rfl
  rw [hh]
  by_cases hm : n ∈ slotNs s k
  · rw [if_pos (mem_slotNs.1 hm)]
    obtain ⟨a, b, e⟩ := List.append_of_mem hm
    have hnd := slotNs_nodup hi k
    have hna : n ∉ a := by
      rw [e] at hnd
      have := (List.nodup_append.1 hnd).2.2
      intro hm; exact this n hm n (by simp) rfl
    have hpn : p n = true := (hp n hm).2 rfl
    have hact : (if p n = true then f s k n else s) = f s k n := if_pos hpn
    have key := walk_hit (fun s m => if p m then f s k m else s) k s n fuel [] a b (by simpa using e) hnd
      (fun m hm => by
        rw [if_neg]
        intro hpm
        exact hna (((hp m (by rw [e]; simp [hm])).1 hpm) ▸ hm))
      (by simp only [hact]; exact slotNs_nodup hi' k)
      (fun m hm hne => by
        simp only [hact] at hm ⊢
        rw [if_neg]
        intro hpm
        have : m ∈ slotNs s k := by rw [mem_slotNs, ← hfs]; exact mem_slotNs.1 hm
        exact hne ((hp m this).1 hpm))
      (by simp only [hact]; rw [mem_slotNs, hfs]; exact mem_slotNs.1 hm)
      (by rw [e] at hlen; simp at hlen; omega)
    rw [← e] at key
    simp only [hact] at key
    exact key
  · rw [if_neg (fun h => hm (mem_slotNs.2 h))]
    refine walk_rest (fun s m => if p m then f s k m else s) k s fuel [] (slotNs s k) rfl (slotNs_nodup hi k) ?_
    intro m hm'
    show (if p m = true then f s k m else s) = s
    rw [if_neg]
    intro hpm
    exact hm (((hp m hm').1 hpm) ▸ hm')

/-! ### Only one destination is concerned -/

/-- The routes to all destinations but `k` are the same up to their smoothed metrics. -/
structure Slots (k : PKey) (s s' : St) : Prop where
  eq : ∀ k', k' ≠ k → (slotOf s'.routes k').map Route.core = (slotOf s.routes k').map Route.core

theorem Slots.refl (k : PKey) (s : St) : Slots k s s := ⟨fun _ _ => rfl⟩

theorem Slots.trans {k : PKey} {a b d : St} (h : Slots k a b) (g : Slots k b d) : Slots k a d :=
  ⟨fun k' e => (g.eq k' e).trans (h.eq k' e)⟩

theorem Only.sl {k : PKey} {s s' : St} (h : Only k s s') : Slots k s s' := ⟨h.slots⟩

theorem QSame.sl {k : PKey} {s s' : St} (h : QSame s s') : Slots k s s' := ⟨fun k' _ => h.slotOf k'⟩

theorem sl_considerInstall (c : Cfg) (s : St) (k : PKey) (n : NeighId) (o : Option Route) :
    Slots k s (considerInstall c s k n o) := by
  unfold considerInstall
  split
  · exact (only_install ..).sl.trans (qms_sendUpdate ..).same.sl
  · next x =>
    simp only
    have h := (only_switch c s k x.neigh n).sl
    split
    · exact h
    · split
      · exact h.trans (qms_sendTriggered ..).same.sl
      · exact h.trans (qms_sendUpdate ..).same.sl

theorem sl_considerRoute (c : Cfg) (s : St) (k : PKey) (n : NeighId) : Slots k s (considerRoute c s k n) := by
  unfold considerRoute
  split
  · exact .refl ..
  · split
    · exact .refl ..
    · split
      · exact .refl ..
      · split
        · exact .refl ..
        · simp only
          split
          · exact (only_shouldSwitch ..).sl.trans (sl_considerInstall ..)
          · exact (only_shouldSwitch ..).sl

theorem sl_routeChanged (c : Cfg) (s : St) (k : PKey) (n : NeighId) (os : SKey) (om : Nat) :
    Slots k s (routeChanged c s k n os om) := by
  have key : Slots k s (routeChangedBetter c s k n) := by
    unfold routeChangedBetter
    split
    · exact .refl ..
    · split
      · split
        · next s1 hb => exact (only_findBest hb).sl
        · next b s1 hb =>
          split
          · exact (only_findBest hb).sl
          · split
            · exact (only_findBest hb).sl.trans (sl_considerRoute ..)
            · exact (only_findBest hb).sl
      · exact .refl ..
  unfold routeChanged
  simp only
  generalize routeChangedBetter c s k n = s1 at key
  split
  · exact key
  · split
    · exact key.trans (qms_sendTriggered ..).same.sl
    · exact key.trans (sl_considerRoute ..)

theorem sl_updateRouteMetric (c : Cfg) (s : St) (k : PKey) (n : NeighId) : Slots k s (updateRouteMetric c s k n) := by
  unfold updateRouteMetric
  split
  · exact .refl ..
  · next r hr =>
    simp only
    have h1 := (only_smooth c s k k n).sl
    generalize smoothRoute c s k n = p at h1
    split
    · split
      · have h3 : ∀ q : UInt16, Slots k s (retractRoute c (modRoute p.2 k n (fun r => { r with seqno := q })) k n) := fun q =>
          (h1.trans (only_modRoute p.2 k n (f := fun r => { r with seqno := q }) (keepsId_of _ (fun _ => ⟨rfl, rfl⟩))).sl).trans
            (only_metric ..).sl
        split
        · exact (h3 _).trans (sl_routeChanged ..)
        · exact h3 _
      · exact h1
    · have h2 := h1.trans (only_metric c p.2 k n r.refmetric (p.2.ncost n)
        (c.inputFilter (some r.id) k (some n) (c.ifOf n))).sl
      generalize changeRouteMetric c p.2 k n r.refmetric (p.2.ncost n)
        (c.inputFilter (some r.id) k (some n) (c.ifOf n)) = s2 at h2
      split
      · exact h2
      · split
        · exact h2.trans (sl_routeChanged ..)
        · split
          · exact (h2.trans (only_smooth ..).sl).trans (sl_routeChanged ..)
          · exact h2.trans (only_smooth ..).sl

theorem sl_retractOne (c : Cfg) (s : St) (k : PKey) (n : NeighId) : Slots k s (retractOne c s k n) := by
  unfold retractOne
  split
  · exact .refl ..
  · simp only
    split
    · have h := (only_metric c s k n INFINITY INFINITY 0).sl
      split
      · exact h.trans (sl_routeChanged ..)
      · exact h
    · exact .refl ..

theorem sl_walkFrom (act : St → NeighId → St) (k : PKey) (ha : ∀ s n, Slots k s (act s n)) (fuel : Nat)
    (m : Option NeighId) (s : St) : Slots k s (walkFrom act k fuel m s) := by
  induction fuel generalizing m s with
  | zero => exact .refl ..
  | succ f ih =>
    cases m with
    | none => exact .refl ..
    | some n => simp only [walkFrom]; exact (ha s n).trans (ih ..)

theorem sl_walkSlot (act : St → PKey → NeighId → St) (ha : ∀ s k n, Slots k s (act s k n)) (fuel : Nat) (s : St)
    (k : PKey) : Slots k s (walkSlot act fuel s k) := sl_walkFrom _ k (fun s n => ha s k n) ..

/-- A fold of steps that concern one destination each: what happens to a destination is what its own step does. -/
theorem sl_foldl (g : St → PKey → St) (hg : ∀ s k, Slots k s (g s k)) (I : St → Prop) (hI : ∀ s k, I s → I (g s k))
    (ks : List PKey) (hks : ks.Nodup) (s : St) (hs : I s) (k : PKey) :
    ∃ s1, I s1 ∧ (slotOf s1.routes k).map Route.core = (slotOf s.routes k).map Route.core ∧
      (slotOf (ks.foldl g s).routes k).map Route.core =
        (slotOf (if k ∈ ks then g s1 k else s1).routes k).map Route.core := by
  induction ks generalizing s with
  | nil => exact ⟨s, hs, rfl, by simp⟩
  | cons a ks ih =>
    rw [List.foldl_cons]
    obtain ⟨hna, hnd⟩ := List.nodup_cons.1 hks
    by_cases e : k = a
    · subst e
      refine ⟨s, hs, rfl, ?_⟩
      rw [if_pos (by simp)]
      obtain ⟨s1, h1, h2, h3⟩ := ih hnd (g s k) (hI s k hs)
      rw [h3, if_neg hna, h2]
    · obtain ⟨s1, h1, h2, h3⟩ := ih hnd (g s a) (hI s a hs)
      refine ⟨s1, h1, h2.trans ((hg s a).eq k e), ?_⟩
      rw [h3]
      simp [e]

theorem nodup_eraseDups {α} [BEq α] [LawfulBEq α] (l : List α) : l.eraseDups.Nodup := by
  generalize hn : l.length = n
  induction n using Nat.strongRecOn generalizing l with
  | _ n ih =>
    cases l with
    | nil => simp
    | cons a l =>
      rw [List.eraseDups_cons]
      have hlen : (l.filter (fun b => !b == a)).length < n := by
        have := List.length_filter_le (fun b => !b == a) l
        simp at hn; omega
      refine List.nodup_cons.2 ⟨?_, ih _ hlen _ rfl⟩
      rw [List.mem_eraseDups]
      simp

theorem slotKeys_nodup (s : St) : (slotKeys s).Nodup := by
  unfold slotKeys
  exact (sortBy_perm _ _).nodup_iff.2 (nodup_eraseDups _)

theorem findRoute_slots {s s' : St} {k : PKey}
    (h : (slotOf s'.routes k).map Route.core = (slotOf s.routes k).map Route.core) (n : NeighId) :
    (findRoute s' k n).map Route.core = (findRoute s k n).map Route.core := by
  unfold findRoute
  rw [← find_slotOf, ← find_slotOf]
  exact find_core h _ (fun _ => rfl)

/-! ### What happens to one route -/

theorem changeRouteMetric_others {c : Cfg} {s : St} {k : PKey} {n : NeighId} {r : Route} (refm cost add : Nat)
    (h : findRoute s k n = some r) {k' : PKey} {n' : NeighId} (hne : ¬ (k' = k ∧ n' = n)) :
    (findRoute (changeRouteMetric c s k n refm cost add) k' n').map Route.content =
      (findRoute s k' n').map Route.content := by
  rcases changeRouteMetric_routes (c := c) refm cost add h with ⟨-, e⟩ | e
  · unfold findRoute; rw [e]
  · have h2 := find_core e (fun r => r.key == k' && r.neigh == n') (fun _ => rfl)
    have h3 : (flatModify s.routes k n (setRc refm cost add)).find? (fun r => r.key == k' && r.neigh == n') =
        findRoute s k' n' := by
      show flatFind _ k' n' = _
      rw [flatFind_modify _ _ _ _ _ _ (keepsId_setRc _ _ _), if_neg hne]; rfl
    rw [h3] at h2
    exact map_content_of_core h2

theorem retractOne_find {c : Cfg} {s : St} {k : PKey} {n : NeighId} {r : Route} (h : findRoute s k n = some r) :
    ∃ r', findRoute (retractOne c s k n) k n = some r' ∧ Withdrawn r r' r.seqno := by
  unfold retractOne
  rw [h]
  simp only
  by_cases hr : r.refmetric = INFINITY
  · rw [if_neg (by simpa using hr)]
    exact ⟨r, h, ⟨rfl, rfl, rfl, rfl, rfl, rfl⟩, rfl, .inl hr⟩
  · rw [if_pos (by simpa using hr)]
    obtain ⟨r1, h1, h2⟩ := changeRouteMetric_find (c := c) INFINITY INFINITY 0 h
    have key : Withdrawn r r1 r.seqno := by
      rcases h2 with ⟨hi, e⟩ | e
      · subst e; exact ⟨⟨rfl, rfl, rfl, rfl, rfl, rfl⟩, rfl, .inr ⟨hi, rfl, rfl, rfl⟩⟩
      · rw [core_eq (r := setRc INFINITY INFINITY 0 r) e]
        exact ⟨⟨rfl, rfl, rfl, rfl, rfl, rfl⟩, rfl, .inl rfl⟩
    split
    · obtain ⟨r2, h3, e⟩ := (routeChanged_rsame c (retractRoute c s k n) k n r.skey (routeMetric r)).route h1
      exact ⟨r2, h3, key.content (sameContent_of e)⟩
    · exact ⟨r1, h1, key⟩

theorem updateRouteMetric_find {c : Cfg} {s : St} {k : PKey} {n : NeighId} {r : Route} (h : findRoute s k n = some r)
    (hk : r.key = k) (hn : r.neigh = n) :
    ∃ r', findRoute (updateRouteMetric c s k n) k n = some r' ∧
      (s.now.sec ≤ r.time + r.holdTime →
        Recosted r r' (s.ncost n) (c.inputFilter (some r.id) k (some n) (c.ifOf n))) ∧
      (r.time + r.holdTime < s.now.sec → r.refmetric < INFINITY →
        ∃ q, Withdrawn r r' q ∧ ∀ src, findSource s r.skey = some src → q = seqnoPlus src.seqno 1) ∧
      (r.time + r.holdTime < s.now.sec → INFINITY ≤ r.refmetric → SameContent r r') := by
  have hf := frame_smooth c s k n
  have hs := smoothRoute_find (c := c) h
  have hsrc : ∀ sk, findSource (smoothRoute c s k n).2 sk = findSource s sk := fun sk => by unfold findSource; rw [hf.sources]
  obtain ⟨p, hp⟩ : ∃ p, p = smoothRoute c s k n := ⟨_, rfl⟩
  rw [← hp] at hf hs hsrc
  have hnc : p.2.ncost = s.ncost := hf.ncost
  unfold updateRouteMetric
  rw [h]
  simp only
  rw [← hp]
  by_cases hx : routeExpired s r = true
  · have hx' : ¬ s.now.sec ≤ r.time + r.holdTime := by unfold routeExpired at hx; simp at hx; omega
    rw [if_pos hx]
    by_cases hm : r.refmetric < INFINITY
    · rw [if_pos hm]
      suffices gen : ∀ q : UInt16, (∀ src, findSource s r.skey = some src → q = seqnoPlus src.seqno 1) →
          ∃ r', findRoute (if routeMetric r < INFINITY then
              routeChanged c (retractRoute c (modRoute p.2 k n (fun r => { r with seqno := q })) k n) k n r.skey (routeMetric r)
            else retractRoute c (modRoute p.2 k n (fun r => { r with seqno := q })) k n) k n = some r' ∧
          ∃ q, Withdrawn r r' q ∧ ∀ src, findSource s r.skey = some src → q = seqnoPlus src.seqno 1 by
        rw [hsrc]
        cases e : findSource s r.skey with
        | none =>
          obtain ⟨r', h1, h2⟩ := gen r.seqno (by rw [e]; nofun)
          exact ⟨r', h1, fun h => absurd h hx', fun _ _ => by rw [← e]; exact h2, fun _ h => by omega⟩
        | some src =>
          obtain ⟨r', h1, h2⟩ := gen (seqnoPlus src.seqno 1) (by rw [e]; intro x h; cases h; rfl)
          exact ⟨r', h1, fun h => absurd h hx', fun _ _ => by rw [← e]; exact h2, fun _ h => by omega⟩
      intro q hqq
      have h2 : findRoute (modRoute p.2 k n (fun r => { r with seqno := q })) k n =
          some { r with smoothed := p.1, smoothedTime := s.now.sec, seqno := q } := by
        refine Eq.trans (findRoute_modRoute _ k k n n (fun r => { r with seqno := q }) (keepsId_of _ (fun _ => ⟨rfl, rfl⟩))) ?_
        rw [if_pos ⟨rfl, rfl⟩, hs]; rfl
      obtain ⟨r1, h1, h3⟩ := changeRouteMetric_find (c := c) INFINITY INFINITY 0 h2
      have key : Withdrawn r r1 q := by
        rcases h3 with ⟨hi, e⟩ | e
        · subst e; exact ⟨⟨rfl, rfl, rfl, rfl, rfl, rfl⟩, rfl, .inr ⟨hi, rfl, rfl, rfl⟩⟩
        · rw [core_eq (r := setRc INFINITY INFINITY 0
            { r with smoothed := p.1, smoothedTime := s.now.sec, seqno := q }) e]
          exact ⟨⟨rfl, rfl, rfl, rfl, rfl, rfl⟩, rfl, .inl rfl⟩
      split
      · obtain ⟨r2, h4, e⟩ := (routeChanged_rsame c (retractRoute c (modRoute p.2 k n (fun r => { r with seqno := q })) k n)
          k n r.skey (routeMetric r)).route h1
        exact ⟨r2, h4, q, key.content (sameContent_of e), hqq⟩
      · exact ⟨r1, h1, q, key, hqq⟩
    · rw [if_neg hm]
      exact ⟨_, hs, fun h => absurd h hx', fun _ h => absurd h hm, fun _ _ =>
        ⟨⟨rfl, rfl, rfl, rfl, rfl, rfl⟩, rfl, rfl, rfl, rfl⟩⟩
  · have hx' : s.now.sec ≤ r.time + r.holdTime := by unfold routeExpired at hx; simp at hx; omega
    rw [if_neg hx, hnc]
    obtain ⟨r1, h1, h3⟩ := changeRouteMetric_find (c := c) r.refmetric (s.ncost n)
      (c.inputFilter (some r.id) k (some n) (c.ifOf n)) hs
    have key : Recosted r r1 (s.ncost n) (c.inputFilter (some r.id) k (some n) (c.ifOf n)) := by
      rcases h3 with ⟨hi, e⟩ | e
      · subst e; exact ⟨⟨rfl, rfl, rfl, rfl, rfl, rfl⟩, rfl, rfl, .inr ⟨hi, rfl, rfl⟩⟩
      · rw [core_eq (r := setRc r.refmetric (s.ncost n) (c.inputFilter (some r.id) k (some n) (c.ifOf n))
            { r with smoothed := p.1, smoothedTime := s.now.sec }) e]
        exact ⟨⟨rfl, rfl, rfl, rfl, rfl, rfl⟩, rfl, rfl, .inl ⟨rfl, rfl⟩⟩
    obtain ⟨s2, hs2⟩ : ∃ s2, s2 = changeRouteMetric c p.2 k n r.refmetric (s.ncost n)
      (c.inputFilter (some r.id) k (some n) (c.ifOf n)) := ⟨_, rfl⟩
    rw [← hs2] at h1 ⊢
    rw [h1]
    simp only
    have fin : ∀ s', RSame s2 s' → ∃ r', findRoute s' k n = some r' ∧
        (s.now.sec ≤ r.time + r.holdTime →
          Recosted r r' (s.ncost n) (c.inputFilter (some r.id) k (some n) (c.ifOf n))) ∧
        (r.time + r.holdTime < s.now.sec → r.refmetric < INFINITY →
          ∃ q, Withdrawn r r' q ∧ ∀ src, findSource s r.skey = some src → q = seqnoPlus src.seqno 1) ∧
        (r.time + r.holdTime < s.now.sec → INFINITY ≤ r.refmetric → SameContent r r') := by
      intro s' hs'
      obtain ⟨r2, h4, e⟩ := hs'.route h1
      exact ⟨r2, h4, fun _ => key.content (sameContent_of e), fun h => by omega, fun h => by omega⟩
    split
    · exact fin _ (routeChanged_rsame ..)
    · split
      · exact fin _ ((frame_smooth c s2 k n).qsame.rsame.trans (routeChanged_rsame ..))
      · exact fin _ (frame_smooth c s2 k n).qsame.rsame

theorem retractOne_other {c : Cfg} {s : St} {k : PKey} {n : NeighId} {k' : PKey} {n' : NeighId} (hne : ¬ (k' = k ∧ n' = n)) :
    (findRoute (retractOne c s k n) k' n').map Route.content = (findRoute s k' n').map Route.content := by
  unfold retractOne
  cases h : findRoute s k n with
  | none => rfl
  | some r =>
    simp only
    split
    · have h1 := changeRouteMetric_others (c := c) INFINITY INFINITY 0 h hne
      split
      · exact ((routeChanged_rsame c (retractRoute c s k n) k n r.skey (routeMetric r)).find k' n').trans h1
      · exact h1
    · rfl

theorem updateRouteMetric_other {c : Cfg} {s : St} {k : PKey} {n : NeighId} {k' : PKey} {n' : NeighId}
    (hne : ¬ (k' = k ∧ n' = n)) :
    (findRoute (updateRouteMetric c s k n) k' n').map Route.content = (findRoute s k' n').map Route.content := by
  unfold updateRouteMetric
  cases h : findRoute s k n with
  | none => rfl
  | some r =>
    simp only
    have hf := (frame_smooth c s k n).qsame.rsame
    have hs := smoothRoute_find (c := c) h
    generalize smoothRoute c s k n = p at hf hs
    split
    · split
      · have g : ∀ q : UInt16, (findRoute (retractRoute c (modRoute p.2 k n (fun r => { r with seqno := q })) k n) k' n').map
            Route.content = (findRoute s k' n').map Route.content := by
          intro q
          have h2 : ∀ k' n', findRoute (modRoute p.2 k n (fun r => { r with seqno := q })) k' n' =
              if k' = k ∧ n' = n then (findRoute p.2 k n).map (fun r => { r with seqno := q }) else findRoute p.2 k' n' :=
            fun k' n' => findRoute_modRoute _ k k' n n' (fun r => { r with seqno := q }) (keepsId_of _ (fun _ => ⟨rfl, rfl⟩))
          have h3 := h2 k n
          rw [if_pos ⟨rfl, rfl⟩, hs] at h3
          have h1 := changeRouteMetric_others (c := c) INFINITY INFINITY 0 h3 hne
          rw [h2, if_neg hne, hf.find] at h1
          exact h1
        split
        · exact ((routeChanged_rsame c (retractRoute c _ k n) k n r.skey (routeMetric r)).find k' n').trans (g _)
        · exact g _
      · exact hf.find _ _
    · have h1 := changeRouteMetric_others (c := c) r.refmetric (p.2.ncost n) (c.inputFilter (some r.id) k (some n) (c.ifOf n)) hs hne
      rw [hf.find] at h1
      generalize changeRouteMetric c p.2 k n r.refmetric (p.2.ncost n)
        (c.inputFilter (some r.id) k (some n) (c.ifOf n)) = s2 at h1
      split
      · exact h1
      · split
        · exact ((routeChanged_rsame ..).find k' n').trans h1
        · split
          · exact (((frame_smooth c s2 k n).qsame.rsame.trans (routeChanged_rsame ..)).find k' n').trans h1
          · exact ((frame_smooth c s2 k n).qsame.rsame.find k' n').trans h1

/-! ### The walks -/

/-- What the walk does to a destination, if at most one of its routes is to be treated. -/
theorem walk_effect {c : Cfg} (f : St → PKey → NeighId → St) (p : NeighId → Bool)
    (hsl : ∀ s k n, Slots k s (f s k n)) (hms : ∀ s k n, Ms c {} s [] (f s k n) [])
    (hoth : ∀ s k n k' n', ¬ (k' = k ∧ n' = n) →
      (findRoute (f s k n) k' n').map Route.content = (findRoute s k' n').map Route.content)
    (hself : ∀ s k n, (findRoute (f s k n) k n).isSome = (findRoute s k n).isSome)
    (s : St) (hi : Inv c s []) (fuel : Nat) (hfuel : s.routes.length ≤ fuel) (k : PKey) (n : NeighId)
    (hp : ∀ m ∈ slotNs s k, p m = true ↔ m = n) :
    ∃ s1, s1.now = s.now ∧ s1.ncost = s.ncost ∧ (∀ m, (findRoute s1 k m).map Route.core = (findRoute s k m).map Route.core) ∧
      ∀ m, (findRoute ((slotKeys s).foldl (walkSlot (fun s k m => if p m then f s k m else s) fuel) s) k m).map Route.core =
        (findRoute (if (findRoute s k n).isSome then f s1 k n else s1) k m).map Route.core := by
  have hact : ∀ s k m, Slots k s (if p m then f s k m else s) := by
    intro s k m; split
    · exact hsl ..
    · exact .refl ..
  have hactm : ∀ s k m, Ms c {} s [] (if p m then f s k m else s) [] := by
    intro s k m; split
    · exact hms ..
    · exact .refl ..
  obtain ⟨s1, ⟨h1, h2, h3⟩, h4, h5⟩ := sl_foldl (walkSlot (fun s k m => if p m then f s k m else s) fuel)
    (fun s k => sl_walkSlot _ hact fuel s k)
    (fun s' => Inv c s' [] ∧ s'.now = s.now ∧ s'.ncost = s.ncost)
    (fun s' k' h => by
      have hm : Ms c {} s' [] (walkSlot (fun s k m => if p m then f s k m else s) fuel s' k') [] :=
        walkFrom_ms _ _ (fun s n => hactm s k' n) _ _ _
      exact ⟨hm.inv h.1, (hm.now (fun h => h) h.1).trans h.2.1, (hm.ncost (fun h => h) h.1).trans h.2.2⟩)
    (slotKeys s) (slotKeys_nodup s) s ⟨hi, rfl, rfl⟩ k
  have hns : slotNs s1 k = slotNs s k := by
    have e := congrArg (List.map Route.neigh) h4
    rw [List.map_map, List.map_map] at e
    exact e
  have hf1 := findRoute_slots h4
  refine ⟨s1, h2, h3, hf1, fun m => ?_⟩
  have hlen : (slotNs s1 k).length ≤ fuel := by
    rw [hns]; unfold slotNs slotOf; rw [List.length_map]
    exact Nat.le_trans (List.length_filter_le _ _) hfuel
  have hsome : (findRoute s1 k n).isSome = (findRoute s k n).isSome := by
    have := congrArg Option.isSome (hf1 n)
    simpa using this
  rw [findRoute_slots h5]
  by_cases hk : k ∈ slotKeys s
  · rw [if_pos hk]
    have hfs : ∀ m, (findRoute (f s1 k n) k m).isSome = (findRoute s1 k m).isSome := by
      intro m
      by_cases e : m = n
      · rw [e]; exact hself ..
      · have := congrArg Option.isSome (hoth s1 k n k m (fun h => e h.2))
        simpa using this
    rw [walkSlot_one (c := c) f p fuel s1 k n h1.lst (Ms.inv (hms s1 k n) h1).lst hfs (by rw [hns]; exact hp) hlen, hsome]
  · rw [if_neg hk]
    have hno : ∀ m, findRoute s k m = none := by
      intro m
      cases e : findRoute s k m with
      | none => rfl
      | some r =>
        obtain ⟨g1, g2, -⟩ := findRoute_mem e
        exact absurd ((mem_slotKeys s k).2 ⟨r, g1, g2⟩) hk
    rw [hno n]
    rfl

theorem core_map {a b : Option Route} (h : a.map Route.core = b.map Route.core) {r : Route} (hr : b = some r) :
    ∃ r', a = some r' ∧ r'.core = r.core := by
  subst hr
  cases a with
  | none => simp at h
  | some x => simp at h; exact ⟨x, rfl, h⟩

theorem isSome_of_map {β : Type} {f : Route → β} {a b : Option Route} (h : a.map f = b.map f) : a.isSome = b.isSome := by
  cases a <;> cases b <;> simp at h ⊢

theorem fresh_neigh (l : List NeighId) : ∃ n : NeighId, ∀ m ∈ l, m ≠ n := by
  suffices h : ∃ n : Nat, ∀ m ∈ l, (m : Nat) < n by
    obtain ⟨n, h⟩ := h
    exact ⟨n, fun m hm e => Nat.lt_irrefl n (e ▸ h m hm)⟩
  induction l with
  | nil => exact ⟨0, by simp⟩
  | cons a l ih =>
    obtain ⟨n, h⟩ := ih
    refine ⟨max n (Nat.succ a), fun m hm => ?_⟩
    rcases List.mem_cons.1 hm with rfl | hm
    · exact Nat.lt_of_lt_of_le (Nat.lt_succ_self _) (Nat.le_max_right ..)
    · exact Nat.lt_of_lt_of_le (h m hm) (Nat.le_max_left ..)

theorem update_self (c : Cfg) (s : St) (k : PKey) (n : NeighId) :
    (findRoute (updateRouteMetric c s k n) k n).isSome = (findRoute s k n).isSome := by
  cases h : findRoute s k n with
  | none => unfold updateRouteMetric; rw [h]; simp [h]
  | some r =>
    obtain ⟨-, h2, h3⟩ := findRoute_mem h
    obtain ⟨r', h', -⟩ := updateRouteMetric_find (c := c) h h2 h3
    rw [h']; rfl

theorem retract_self (c : Cfg) (s : St) (k : PKey) (n : NeighId) :
    (findRoute (retractOne c s k n) k n).isSome = (findRoute s k n).isSome := by
  cases h : findRoute s k n with
  | none => unfold retractOne; rw [h]; simp [h]
  | some r => obtain ⟨r', h', -⟩ := retractOne_find (c := c) h; rw [h']; rfl

/-- The effect of the walk on one route, from the effect `E` of the treatment. -/
theorem walk_route {c : Cfg} (f : St → PKey → NeighId → St) (p : NeighId → Bool) (E : St → Route → Route → Prop)
    (hsl : ∀ s k n, Slots k s (f s k n)) (hms : ∀ s k n, Ms c {} s [] (f s k n) [])
    (hoth : ∀ s k n k' n', ¬ (k' = k ∧ n' = n) →
      (findRoute (f s k n) k' n').map Route.content = (findRoute s k' n').map Route.content)
    (hself : ∀ s k n, (findRoute (f s k n) k n).isSome = (findRoute s k n).isSome)
    (hE : ∀ s r, findRoute s r.key r.neigh = some r → ∃ r', findRoute (f s r.key r.neigh) r.key r.neigh = some r' ∧ E s r r')
    (hEc : ∀ s s' r r0 r' r'', s'.now = s.now → s'.ncost = s.ncost → r0.core = r.core → r''.core = r'.core →
      E s' r0 r' → E s r r'')
    {s : St} (h : Reachable c s) {fuel : Nat} (hf : s.routes.length ≤ fuel) {r : Route} (hr : r ∈ s.routes)
    (hone : ∀ x ∈ s.routes, ∀ y ∈ s.routes, x.key = r.key → y.key = r.key → p x.neigh = true → p y.neigh = true →
      x.neigh = y.neigh) :
    ∃ r' ∈ ((slotKeys s).foldl (walkSlot (fun s k m => if p m then f s k m else s) fuel) s).routes,
      (p r.neigh = true → E s r r') ∧ (p r.neigh ≠ true → SameContent r r') := by
  have hfr := findRoute_of_mem h.inv.lst hr
  -- the route that is treated, if any
  by_cases hex : ∃ x ∈ s.routes, x.key = r.key ∧ p x.neigh = true
  · obtain ⟨x, hx, hxk, hxp⟩ := hex
    obtain ⟨s1, h1, h2, h3, h4⟩ := walk_effect (c := c) f p hsl hms hoth hself s h.inv fuel hf r.key x.neigh (by
      intro m hm
      constructor
      · intro hpm
        obtain ⟨y, hy, rfl⟩ := List.mem_map.1 hm
        obtain ⟨hy1, hy2⟩ := mem_slotOf.1 hy
        exact hone y hy1 x hx hy2 hxk hpm hxp
      · rintro rfl; exact hxp)
    have hfx := findRoute_of_mem h.inv.lst hx
    rw [hxk] at hfx
    have h4 := h4 r.neigh
    rw [hfx] at h4
    simp only [Option.isSome_some, if_true] at h4
    by_cases hpr : p r.neigh = true
    · have e : r.neigh = x.neigh := hone r hr x hx rfl hxk hpr hxp
      rw [← e] at h4
      obtain ⟨r0, hr0, e0⟩ := core_map (h3 r.neigh) hfr
      have hk0 : r0.key = r.key := by rw [core_eq e0]
      have hn0 : r0.neigh = r.neigh := core_neigh e0
      obtain ⟨r', hr', hE'⟩ := hE s1 r0 (by rw [hk0, hn0]; exact hr0)
      rw [hk0, hn0] at hr'
      obtain ⟨r'', hr'', e''⟩ := core_map h4 hr'
      exact ⟨r'', (findRoute_mem hr'').1, fun _ => hEc s s1 r r0 r' r'' h1 h2 e0 e'' hE', fun g => absurd hpr g⟩
    · have hne : ¬ (r.key = r.key ∧ r.neigh = x.neigh) := fun g => hpr (by rw [g.2]; exact hxp)
      have h5 := hoth s1 r.key x.neigh r.key r.neigh hne
      obtain ⟨r0, hr0, e0⟩ := core_map (h3 r.neigh) hfr
      rw [hr0] at h5
      obtain ⟨r', hr', e'⟩ := Option.map_eq_some_iff.1 h5
      obtain ⟨r'', hr'', e''⟩ := core_map h4 hr'
      refine ⟨r'', (findRoute_mem hr'').1, fun g => absurd g hpr, fun _ => sameContent_of ?_⟩
      rw [content_of_core e'', e', content_of_core e0]
  · have hno : p r.neigh ≠ true := fun g => hex ⟨r, hr, rfl, g⟩
    -- no route is treated: take a neighbour that does not occur
    obtain ⟨n, hn⟩ := fresh_neigh (slotNs s r.key)
    obtain ⟨s1, h1, h2, h3, h4⟩ := walk_effect (c := c) f p hsl hms hoth hself s h.inv fuel hf r.key n (by
      intro m hm
      constructor
      · intro hpm
        obtain ⟨y, hy, rfl⟩ := List.mem_map.1 hm
        obtain ⟨hy1, hy2⟩ := mem_slotOf.1 hy
        exact absurd ⟨y, hy1, hy2, hpm⟩ hex
      · intro e; exact absurd e (hn m hm))
    have h4 := h4 r.neigh
    rw [if_neg (fun g => hn n (mem_slotNs.2 g) rfl), h3 r.neigh] at h4
    obtain ⟨r'', hr'', e''⟩ := core_map h4 hfr
    exact ⟨r'', (findRoute_mem hr'').1, fun g => absurd g hno, fun _ => sameContent_of (content_of_core e'')⟩

theorem sameRoute_core {r r0 r' r'' : Route} (e : r0.core = r.core) (e' : r''.core = r'.core) (h : SameRoute r0 r') :
    SameRoute r r'' := by
  rw [core_eq e] at h; rw [core_eq e']
  exact ⟨h.key, h.neigh, h.nexthop, h.id, h.time, h.hold⟩

theorem recosted_core {r r0 r' r'' : Route} {a b : Nat} (e : r0.core = r.core) (e' : r''.core = r'.core)
    (h : Recosted r0 r' a b) : Recosted r r'' a b := by
  refine ⟨sameRoute_core e e' h.toSameRoute, ?_, ?_, ?_⟩
  all_goals rw [core_eq e] at h; rw [core_eq e']
  · exact h.seqno
  · exact h.refmetric
  · exact h.metric

theorem withdrawn_core {r r0 r' r'' : Route} {q : UInt16} (e : r0.core = r.core) (e' : r''.core = r'.core)
    (h : Withdrawn r0 r' q) : Withdrawn r r'' q := by
  refine ⟨sameRoute_core e e' h.toSameRoute, ?_, ?_⟩
  all_goals rw [core_eq e] at h; rw [core_eq e']
  · exact h.seqno
  · exact h.metric

theorem sameContent_core {r r0 r' r'' : Route} (e : r0.core = r.core) (e' : r''.core = r'.core)
    (h : SameContent r0 r') : SameContent r r'' := by
  refine ⟨sameRoute_core e e' h.toSameRoute, ?_, ?_, ?_, ?_⟩
  all_goals rw [core_eq e] at h; rw [core_eq e']
  · exact h.seqno
  · exact h.refmetric
  · exact h.cost
  · exact h.add

theorem refreshed_found (c : Cfg) (s : St) (r : Route) (h : findRoute s r.key r.neigh = some r) :
    ∃ r', findRoute (updateRouteMetric c s r.key r.neigh) r.key r.neigh = some r' ∧ Refreshed c s r r' := by
  obtain ⟨r', h1, h2, h3, h4⟩ := updateRouteMetric_find (c := c) h rfl rfl
  refine ⟨r', h1, h2, fun a b => ?_, h4⟩
  obtain ⟨q, hq, -⟩ := h3 a b
  exact ⟨q, hq⟩

theorem refreshed_congr (c : Cfg) (s s' : St) (r r0 r' r'' : Route) (hn : s'.now = s.now) (hc : s'.ncost = s.ncost)
    (e : r0.core = r.core) (e' : r''.core = r'.core) (h : Refreshed c s' r0 r') : Refreshed c s r r'' := by
  obtain ⟨h1, h2, h3⟩ := h
  have et : r0.time = r.time ∧ r0.holdTime = r.holdTime ∧ r0.neigh = r.neigh ∧ r0.id = r.id ∧ r0.key = r.key ∧
    r0.refmetric = r.refmetric := by rw [core_eq e]; exact ⟨rfl, rfl, rfl, rfl, rfl, rfl⟩
  obtain ⟨t1, t2, t3, t4, t5, t6⟩ := et
  rw [hn, t1, t2, hc, t3, t4, t5] at h1
  rw [hn, t1, t2, t6] at h2 h3
  refine ⟨fun g => recosted_core e e' (h1 g), fun a b => ?_, fun a b => sameContent_core e e' (h3 a b)⟩
  obtain ⟨q, hq⟩ := h2 a b
  exact ⟨q, withdrawn_core e e' hq⟩

end Babel
