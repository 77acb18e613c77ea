import Verif.Spec.Node
import Verif.Lemmas.Fd
import Verif.Lemmas.Outs
import Verif.Lemmas.Sel
import Verif.Lemmas.Flush
import Verif.Lemmas.Demo
/-
The invariants hold in reachable states; what is recorded when a route is announced.
-/
set_option linter.unusedSimpArgs false
set_option linter.unusedVariables false
namespace Babel
open Spec

theorem Inv.take {c : Cfg} {s : St} {ex} (h : Inv c s ex) : Inv c { s with out := [] } ex := ⟨h.lst, h.src, h.xr⟩

theorem Spec.Reachable.inv {c : Cfg} {s : St} (h : Reachable c s) : Inv c s [] := by
  induction h with
  | init now q ifs nc rand kres => exact .init ..
  | step ev _ ih => exact ih.step ev
  | take _ ih => exact ih.take

theorem env_keeps {c : Cfg} {s : St} {ev : Ev} (h : (allowEv ev).env) :
    (step c s ev).sources = s.sources ∧ (step c s ev).out = s.out ∧ (step c s ev).routes = s.routes ∧
    (step c s ev).fib = s.fib := by
  cases ev with
  | tick t => exact ⟨rfl, rfl, rfl, rfl⟩
  | setCost n v => exact ⟨rfl, rfl, rfl, rfl⟩
  | _ => exact h.elim

theorem Improves.le {q : UInt16} {m m' : Nat} {d : Dist} (h : Improves d (q, m)) (hm : m ≤ m') :
    Improves d (q, m') := by
  rcases Nat.lt_or_eq_of_le hm with h1 | h1
  · exact h.trans (.one (.inr ⟨rfl, h1⟩))
  · rw [← h1]; exact h

theorem announced_improves {now : Int} {q : UInt16} {m : Nat} {x : Source} (hm : m < INFINITY) :
    now - 200 ≤ (updatedSource now q m x).time ∧
    ∃ e, Improves (distOf (updatedSource now q m x)) e ∧ (e = (q, m) ∨ e.1 = q + 32768) := by
  by_cases hnw : q.toNat = (x.seqno.toNat + 32768) % 65536
  · have hx : x.seqno = q + 32768 := by
      apply UInt16.toNat_inj.1
      rw [UInt16.toNat_add, hnw]
      have := x.seqno.toNat_lt
      have : (32768 : UInt16).toNat = 32768 := rfl
      omega
    unfold updatedSource
    rw [if_neg (by omega)]
    split
    · exact ⟨by show now - 200 ≤ now; omega, _, .refl _, .inl rfl⟩
    · exact ⟨by show now - 200 ≤ now; omega, _, .refl _, .inr hx⟩
  · obtain ⟨h1, h2⟩ := updatedSource_announced (now := now) hm hnw
    exact ⟨h1, _, h2, .inl rfl⟩

theorem announced_fd {c : Cfg} {s : St} (hi : Inv c s []) {ev : Ev} {i : IfId} {id : Bytes} {k : PKey}
    {q : UInt16} {m : Nat} (ho : Out.update i id k q m ∈ sent c s ev) (hid : id ≠ c.myid)
    (hm : m < INFINITY) :
    ∃ y e, findSource (after c s ev) ⟨id, k⟩ = some y ∧
      Spec.Fresh (after c s ev) y ∧ Improves (distOf y) e ∧
      (e = (q, m) ∨ e.1 = q + 32768) := by
  unfold sent after at *
  by_cases hA : (allowEv ev).env
  · rw [(env_keeps hA).2.1] at ho; simp at ho
  · have hms := run_ms c hi.take ev
    rcases hms.news hi.take ho rfl rfl with h | ⟨t, e, t', h1, h2, h3, h4, h5, h6⟩
    · simp at h
    · rcases h3.news h4 rfl with h7 | ⟨j, x, _, _, _, h7⟩ | ⟨j, x, _, _, _, h7⟩ |
        ⟨j, r, h71, h72, h73, h74, h75, h76⟩
      · exact absurd h7 h5
      · cases h7; exact absurd rfl hid
      · cases h7; exact absurd rfl hid
      · cases h75
        have hlt : routeMetric r < INFINITY := by omega
        have hrm := (findInstalled_iff h2.lst).1 h71
        have hex := h2.src.has r.skey (by
          have : 0 < t.routes.countP (fun x => x.skey == r.skey) :=
            List.countP_pos_iff.2 ⟨r, hrm.1, by simp⟩
          unfold refs; omega)
        obtain ⟨x, hx⟩ := Option.isSome_iff_exists.1 (show (findSource t r.skey).isSome = true by
          obtain ⟨x, hx1, hx2⟩ := hex
          unfold findSource
          rw [List.find?_isSome]
          exact ⟨x, hx1, by simp [hx2]⟩)
        obtain ⟨a1, e', a2, a3⟩ := announced_improves (now := t.now.sec) (q := r.seqno) (x := x) hlt
        have hnow : t'.now = t.now := by rw [h76]; rfl
        have hfd : FdOk t' r.skey e' := by
          refine ⟨updatedSource t.now.sec r.seqno (routeMetric r) x, ?_, ?_, a2⟩
          · rw [h76]
            show findSource (modSource (emit t _) _ _) _ = _
            rw [findSource_mod _ _ _ _ (fun y => updatedSource_skey ..)]
            have : findSource (emit t (Out.update i r.id r.key r.seqno
              (min (routeMetric r + c.outputFilter (some r.id) r.key i) INFINITY))) r.skey = some x := hx
            rw [this]
            have hk := (findSource_key hx).1
            simp [emit, hk]
          · unfold Spec.Fresh; rw [hnow]; exact a1
        have hfin := h6.fd hA (h3.inv h2) hfd
        obtain ⟨y, y1, y2, y3⟩ := hfin
        rcases a3 with a3 | a3
        · refine ⟨y, _, y1, y2, ?_, .inl rfl⟩
          rw [a3] at y3
          exact Improves.le y3 (by omega)
        · exact ⟨y, e', y1, y2, y3, .inr a3⟩

theorem fd_run {c : Cfg} {k : SKey} (evs : List Ev) {s : St} (hi : Inv c s [])
    (hf : FreshDuring c s k evs) {x : Source} (hx : findSource s k = some x) {d : Dist}
    (hd : Improves (distOf x) d) :
    ∃ y, findSource (run c s evs) k = some y ∧ Improves (distOf y) d := by
  induction evs generalizing s x with
  | nil => exact ⟨x, hx, hd⟩
  | cons ev evs ih =>
    show ∃ y, findSource (run c (step c s ev) evs) k = some y ∧ _
    by_cases hA : (allowEv ev).env
    · have : findSource (step c s ev) k = some x := by
        unfold findSource; rw [(env_keeps hA).1]; exact hx
      exact ih (hi.step ev) hf.2 this hd
    · obtain ⟨y, h1, -, h3⟩ := (run_ms c hi ev).fd hA hi (⟨x, hx, hf.1 x hx, hd⟩ : FdOk s k d)
      exact ih (hi.step ev) hf.2 h1 h3

end Babel
