import Verif.Lemmas.Room
import Verif.Lemmas.Recost
/-
A wildcard update fits in the queue.
-/
set_option linter.unusedSimpArgs false
set_option linter.unusedVariables false
namespace Babel
open Spec

variable {c : Cfg}

theorem nodup_fits {α : Type} [DecidableEq α] : ∀ (l m : List α), l.Nodup → (∀ a ∈ l, a ∈ m) → l.length ≤ m.length
  | [], _, _, _ => Nat.zero_le _
  | a :: l, m, hn, hs => by
    rw [List.nodup_cons] at hn
    have hm := hs a (List.mem_cons_self ..)
    have h := nodup_fits l (m.erase a) hn.2 (fun b hb => (List.mem_erase_of_ne (fun e : b = a => hn.1 (by rw [← e]; exact hb))).2 (hs b (List.mem_cons_of_mem _ hb)))
    rw [List.length_erase_of_mem hm] at h
    have := List.length_pos_of_mem hm
    simp only [List.length_cons]
    omega

/-- The installed routes have different destinations. -/
theorem installed_fit {l : List Route} (h : LInv c l) (p : PKey → Bool) :
    (((l.filter (·.installed)).map (·.key)).filter p).length ≤ (l.map (·.key)).eraseDups.length := by
  refine nodup_fits _ _ ?_ ?_
  · refine List.Nodup.sublist List.filter_sublist ?_
    rw [List.Nodup, List.pairwise_map]
    have h1 : (l.filter (·.installed)).Pairwise (fun a b => a.key = b.key → b.installed = false) := h.head.sublist List.filter_sublist
    refine h1.imp_of_mem ?_
    intro a b _ hb hab e
    have := (List.mem_filter.1 hb).2
    rw [hab e] at this
    cases this
  · intro k hk
    have hk := (List.mem_filter.1 hk).1
    rw [List.mem_map] at hk
    obtain ⟨r, hr, rfl⟩ := hk
    rw [List.mem_eraseDups]
    exact List.mem_map_of_mem (List.mem_filter.1 hr).1

/-- State `t` is reached from `s` by queuing the updates `m` on interface `i`, without a flush. -/
structure Filling (s : St) (i : IfId) (x : Iface) (t : St) (m : List PKey) : Prop where
  room : Room t
  ann : SameAnn s t
  out : t.out = s.out
  here : ∃ y, getIf t i = some y ∧ y.up = true ∧ y.bufSize = x.bufSize ∧ y.queue = m ∧
    (y.queueCap = queueSize s x ∨ (m = [] ∧ y.queueCap = 0))

theorem Filling.modIf {s t : St} {i : IfId} {x : Iface} {m : List PKey} (h : Filling s i x t m) (f : Iface → Iface)
    (h1 : ∀ y, (f y).ifindex = y.ifindex) (h2 : ∀ y, (f y).up = y.up ∧ (f y).bufSize = y.bufSize ∧ (f y).queue = y.queue ∧ (f y).queueCap = y.queueCap) :
    Filling s i x (modIf t i f) m := by
  obtain ⟨y, a1, a2, a3, a4, a5⟩ := h.here
  refine ⟨Spec.Room.modIf h.room i f h1 (fun z hz => by rw [(h2 z).2.2.1, (h2 z).2.2.2]; exact hz), h.ann.trans (sameAnn_modIf ..), h.out, f y, ?_, ?_⟩
  · rw [getIf_modIf _ _ f h1, if_pos rfl, a1]; rfl
  · rw [(h2 y).1, (h2 y).2.1, (h2 y).2.2.1, (h2 y).2.2.2]
    exact ⟨a2, a3, a4, a5⟩

theorem Filling.sched {s t : St} {i : IfId} {x : Iface} {m : List PKey} (h : Filling s i x t m) (u : Bool) :
    Filling s i x (scheduleUpdateFlush t i u) m := by
  unfold scheduleUpdateFlush
  split
  · exact h
  · simp only
    split
    · exact ⟨h.room.of_ifaces rfl, h.ann.trans ⟨rfl, rfl, rfl, rfl⟩, h.out, h.here⟩
    · refine Filling.modIf (t := (popRand (popRand t).2).2) ?_ _ (fun _ => rfl) (fun _ => ⟨rfl, rfl, rfl, rfl⟩)
      exact ⟨h.room.of_ifaces rfl, h.ann.trans ⟨rfl, rfl, rfl, rfl⟩, h.out, h.here⟩

theorem bufferUpdate_iface {s : St} {i : IfId} {x y : Iface} {k : PKey} (hx : getIf s i = some x)
    (hy : getIf (bufferUpdate c s i k) i = some y) : y.up = x.up ∧ y.bufSize = x.bufSize := by
  unfold bufferUpdate at hy
  rw [hx] at hy
  simp only at hy
  rw [getIf_modIf _ _ _ (by intro; rfl), if_pos rfl] at hy
  split at hy
  · rw [flushUpdates_getIf hx, if_pos rfl, hx] at hy
    cases hy
    exact ⟨rfl, rfl⟩
  · rw [hx] at hy
    cases hy
    exact ⟨rfl, rfl⟩

theorem bufferUpdate_calm {s : St} {i : IfId} {x : Iface} {k : PKey} (hx : getIf s i = some x)
    (h : x.queue.length < x.queueCap ∨ x.queue = []) : SameAnn s (bufferUpdate c s i k) ∧ (bufferUpdate c s i k).out = s.out := by
  unfold bufferUpdate
  rw [hx]
  simp only
  rw [if_neg (show ¬ (x.queue.length > 0 ∧ x.queue.length ≥ x.queueCap) by
    rcases h with h | h
    · omega
    · rw [h]; simp)]
  exact ⟨sameAnn_modIf .., rfl⟩

theorem Filling.push {s t : St} {i : IfId} {x : Iface} {m : List PKey} (h : Filling s i x t m) (hm : m.length < queueSize s x) (k : PKey) :
    Filling s i x (bufferUpdate c t i k) (m ++ [k]) := by
  obtain ⟨y, a1, a2, a3, a4, a5⟩ := h.here
  obtain ⟨-, z, b1, b2, b3⟩ := bufferUpdate_queue (c := c) h.room a1 k
  obtain ⟨c1, c2⟩ := bufferUpdate_iface a1 b1
  have hs : queueSize t y = queueSize s x := by
    rw [queueSize_ann h.ann]; unfold queueSize; rw [a3]
  obtain ⟨d1, d2⟩ := bufferUpdate_calm (c := c) (k := k) a1 (by
    rcases a5 with e | ⟨e, _⟩
    · exact .inl (by rw [e, a4]; exact hm)
    · exact .inr (a4.trans e))
  refine ⟨h.room.buffer i k, h.ann.trans d1, d2.trans h.out, z, b1, c1.trans a2, c2.trans a3, ?_⟩
  rcases a5 with e | ⟨e1, e2⟩
  · obtain ⟨q1, q2⟩ := b2 (by rw [e, a4]; exact hm)
    exact ⟨by rw [q1, a4], .inl (q2.trans e)⟩
  · obtain ⟨q1, q2⟩ := b3 (by rw [a4, e1, e2]; rfl)
    exact ⟨by rw [q1, e1]; rfl, .inl (q2.trans hs)⟩

theorem Filling.up {s t : St} {i : IfId} {x : Iface} {m : List PKey} (h : Filling s i x t m) : ifUp t i = true := by
  obtain ⟨y, a1, a2, -⟩ := h.here
  unfold ifUp
  rw [a1]
  exact a2

theorem Filling.self {s : St} {i : IfId} {x : Iface} (u : Bool) : ∀ (l : List Xroute) (t : St) (m : List PKey), Filling s i x t m →
    m.length + l.length ≤ queueSize s x → Filling s i x (l.foldl (fun t z => sendUpdateIf c t i u z.key) t) (m ++ l.map (·.key))
  | [], t, m, h, _ => by simpa using h
  | z :: l, t, m, h, hm => by
    rw [List.length_cons] at hm
    rw [List.foldl_cons, List.map_cons]
    have h1 : Filling s i x (sendUpdateIf c t i u z.key) (m ++ [z.key]) := by
      unfold sendUpdateIf
      rw [h.up]
      exact (h.push (by omega) z.key).sched u
    have := Filling.self u l _ _ h1 (by rw [List.length_append]; simp only [List.length_cons, List.length_nil]; omega)
    rwa [List.append_assoc] at this

theorem Filling.routes {s : St} {i : IfId} {x : Iface} (ss : Bool) : ∀ (l : List PKey) (t : St) (m : List PKey), Filling s i x t m →
    m.length + (l.filter (fun k => k.isSS == ss)).length ≤ queueSize s x →
    Filling s i x (l.foldl (fun s k => if k.isSS == ss then bufferUpdate c s i k else s) t) (m ++ l.filter (fun k => k.isSS == ss))
  | [], t, m, h, _ => by simpa using h
  | k :: l, t, m, h, hm => by
    rw [List.foldl_cons]
    rw [List.filter_cons] at hm ⊢
    cases hk : k.isSS == ss with
    | true =>
      rw [hk] at hm
      simp only [if_true, List.length_cons] at hm ⊢
      have := Filling.routes ss l _ _ (h.push (c := c) (by omega) k) (by rw [List.length_append]; simp only [List.length_cons, List.length_nil]; omega)
      rwa [List.append_assoc] at this
    | false =>
      rw [hk] at hm
      simp only [Bool.false_eq_true, if_false] at hm ⊢
      exact Filling.routes ss l _ m h hm

theorem Filling.wildFrom {s t : St} {i : IfId} {x : Iface} {m : List PKey} (h0 : Filling s i x t m) (u ss : Bool)
    (hz : m.length + s.xroutes.length + ((installedKeys s).filter (fun k => k.isSS == ss)).length ≤ queueSize s x) :
    Filling s i x (sendUpdateWild c t i u ss)
      (m ++ s.xroutes.map (·.key) ++ (installedKeys s).filter (fun k => k.isSS == ss)) := by
  have h1 : Filling s i x (sendSelfUpdate c t i) (m ++ s.xroutes.map (·.key)) := by
    unfold sendSelfUpdate
    rw [h0.ann.xroutes]
    exact h0.self false _ _ _ (by omega)
  have e : installedKeys (sendSelfUpdate c t i) = installedKeys s := by unfold installedKeys; rw [h1.ann.routes]
  have h2 := Filling.routes (c := c) ss (installedKeys s) _ _ h1 (by rw [List.length_append, List.length_map]; exact hz)
  unfold sendUpdateWild
  rw [h0.up]
  simp only [Bool.not_true, Bool.false_eq_true, if_false]
  refine Filling.sched ?_ u
  rw [e]
  refine Filling.modIf ?_ _ (fun _ => rfl) (fun _ => ⟨rfl, rfl, rfl, rfl⟩)
  exact ⟨h2.room.of_ifaces rfl, h2.ann.trans ⟨rfl, rfl, rfl, rfl⟩, h2.out, h2.here⟩

theorem Filling.wild {s : St} (hl : LInv c s.routes) {i : IfId} {x : Iface} (hx : getIf s i = some x) (hup : x.up = true)
    (hr : Room s) (hq : x.queue = []) (hc : x.queueCap = 0) (u ss : Bool) :
    Filling s i x (sendUpdateWild c s i u ss)
      (s.xroutes.map (·.key) ++ (installedKeys s).filter (fun k => k.isSS == ss)) := by
  have h0 : Filling s i x s [] := ⟨hr, .refl s, rfl, x, hx, hup, rfl, hq, .inr ⟨rfl, hc⟩⟩
  have hb := installed_fit hl (fun k => k.isSS == ss)
  have := h0.wildFrom (c := c) u ss (by
    unfold queueSize slotCount installedKeys
    simp only [List.length_nil]
    omega)
  rwa [List.nil_append] at this

theorem Filling.full {s : St} (hl : LInv c s.routes) {i : IfId} {x : Iface} (hx : getIf s i = some x) (hup : x.up = true)
    (hr : Room s) (hq : x.queue = []) (hc : x.queueCap = 0) (u : Bool)
    (hf : s.xroutes.length ≤ 4 ∨ 2 * s.xroutes.length + (installedKeys s).length ≤ x.bufSize / 16) :
    Filling s i x (sendUpdateAny c s i u)
      (s.xroutes.map (·.key) ++ (installedKeys s).filter (fun k => !k.isSS) ++ s.xroutes.map (·.key) ++
        (installedKeys s).filter (fun k => k.isSS)) := by
  have h0 : Filling s i x s [] := ⟨hr, .refl s, rfl, x, hx, hup, rfl, hq, .inr ⟨rfl, hc⟩⟩
  have h1 := Filling.wild hl hx hup hr hq hc u false
  have hb := installed_fit hl (fun _ => true)
  have hp : ((installedKeys s).filter (fun k => k.isSS == false)).length + ((installedKeys s).filter (fun k => k.isSS == true)).length =
      (installedKeys s).length := by
    induction installedKeys s with
    | nil => rfl
    | cons k l ih =>
      rw [List.filter_cons, List.filter_cons]
      cases k.isSS <;> simp at ih ⊢ <;> omega
  have h2 := h1.wildFrom (c := c) u true (by
    rw [List.length_append, List.length_map]
    have hb : ((installedKeys s).filter (fun _ => true)).length ≤ slotCount s := hb
    rw [List.filter_eq_self.2 (fun _ _ => rfl)] at hb
    unfold queueSize
    omega)
  unfold sendUpdateAny
  rw [h0.up]
  simp only [Bool.not_true, Bool.false_eq_true, if_false]
  have := h2.sched u
  simpa using this

end Babel
