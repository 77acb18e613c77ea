import Verif.Spec.IfParams
/-
Lemmas about the parameters of interfaces.
-/
namespace Babel
open Spec

theorem flagTest_eq (f : BitVec 16) (b : Nat) (h : b < 16) : flagTest f b = f.getLsbD b := by
  unfold flagTest
  have : (1#16 <<< b) = BitVec.twoPow 16 b := rfl
  rw [this, BitVec.and_twoPow]
  cases hb : f.getLsbD b
  · simp
  · simp only [if_true, bne_iff_ne, ne_eq]
    intro h0
    have := congrArg (BitVec.getLsbD · b) h0
    simp [h] at this

theorem getLsbD_flagSet (f : BitVec 16) (b b' : Nat) (h' : b' < 16) :
    (flagSet f b).getLsbD b' = (f.getLsbD b' || b == b') := by
  unfold flagSet
  rw [show (1#16 <<< b) = BitVec.twoPow 16 b from rfl, BitVec.getLsbD_or, BitVec.getLsbD_twoPow]
  by_cases hb : b = b'
  · subst hb; simp [h']
  · simp [hb]

theorem getLsbD_flagClear (f : BitVec 16) (b b' : Nat) (h' : b' < 16) :
    (flagClear f b).getLsbD b' = (f.getLsbD b' && !(b == b')) := by
  unfold flagClear
  rw [show (1#16 <<< b) = BitVec.twoPow 16 b from rfl, BitVec.getLsbD_and, BitVec.getLsbD_not, BitVec.getLsbD_twoPow]
  by_cases hb : b = b'
  · subst hb; simp [h']
  · simp [hb, h']

theorem flagTest_set (f : BitVec 16) (b b' : Nat) (h' : b' < 16) : flagTest (flagSet f b) b' = (flagTest f b' || b == b') := by
  rw [flagTest_eq _ _ h', flagTest_eq _ _ h', getLsbD_flagSet _ _ _ h']

theorem flagTest_clear (f : BitVec 16) (b b' : Nat) (h' : b' < 16) :
    flagTest (flagClear f b) b' = (flagTest f b' && !(b == b')) := by
  rw [flagTest_eq _ _ h', flagTest_eq _ _ h', getLsbD_flagClear _ _ _ h']

theorem flagTest_setFlag (f : BitVec 16) (b conf : Nat) (dflt : Bool) (b' : Nat) (h' : b' < 16) :
    flagTest (setFlag f b conf dflt) b' =
      if b = b' then (decide (conf = CONFIG_YES) || (decide (conf ≠ CONFIG_NO) && dflt)) else flagTest f b' := by
  have hyn : CONFIG_YES ≠ CONFIG_NO := by decide
  unfold setFlag
  by_cases hb : b = b'
  · subst hb
    by_cases h1 : conf = CONFIG_YES
    · simp [h1, flagTest_set, h']
    · by_cases h2 : conf = CONFIG_NO
      · subst h2; simp [Ne.symm hyn, flagTest_clear, h']
      · cases dflt <;> simp [h1, h2, flagTest_set, flagTest_clear, h']
  · by_cases h1 : conf = CONFIG_YES
    · simp [h1, flagTest_set, h', hb]
    · by_cases h2 : conf = CONFIG_NO
      · subst h2; simp [Ne.symm hyn, flagTest_clear, h', hb]
      · cases dflt <;> simp [h1, h2, flagTest_set, flagTest_clear, h', hb]

theorem flagTest_ite (p : Prop) [Decidable p] (f : BitVec 16) (b b' : Nat) (h' : b' < 16) :
    flagTest (if p then flagSet f b else flagClear f b) b' = if b = b' then decide p else flagTest f b' := by
  by_cases hb : b = b' <;> by_cases hp : p <;> simp [hb, hp, flagTest_set, flagTest_clear, h']

theorem flagTest_ite' (p : Prop) [Decidable p] (f : BitVec 16) (b b' : Nat) (h' : b' < 16) :
    flagTest (if p then flagSet f b else f) b' = if b = b' then (decide p || flagTest f b') else flagTest f b' := by
  by_cases hb : b = b' <;> by_cases hp : p <;> simp [hb, hp, flagTest_set, h']

/-- All flags. -/
theorem ifFlags_test (c : IfConf) (e : IfEnv) (f : BitVec 16) :
    flagTest (ifFlags c e f) IFB_UP = flagTest f IFB_UP ∧
    flagTest (ifFlags c e f) IFB_WIRELESS = decide (ifType c e = IF_TYPE_WIRELESS) ∧
    flagTest (ifFlags c e f) IFB_SPLIT_HORIZON =
      (decide (c.splitHorizon = CONFIG_YES) || (decide (c.splitHorizon ≠ CONFIG_NO) && ifType c e == IF_TYPE_WIRED)) ∧
    flagTest (ifFlags c e f) IFB_LQ =
      (decide (c.lq = CONFIG_YES) || (decide (c.lq ≠ CONFIG_NO) && ifType c e == IF_TYPE_WIRELESS)) ∧
    flagTest (ifFlags c e f) IFB_FARAWAY = (decide (c.faraway = CONFIG_YES) || flagTest f IFB_FARAWAY) ∧
    flagTest (ifFlags c e f) IFB_UNICAST = (decide (c.unicast = CONFIG_YES) || flagTest f IFB_UNICAST) ∧
    flagTest (ifFlags c e f) IFB_TIMESTAMPS =
      (decide (c.timestamps = CONFIG_YES) || (decide (c.timestamps ≠ CONFIG_NO) && ifType c e == IF_TYPE_TUNNEL)) ∧
    flagTest (ifFlags c e f) IFB_RFC6126 = decide (c.rfc6126 = CONFIG_YES) ∧
    flagTest (ifFlags c e f) IFB_ACCEPT_BAD_SIGNATURES = decide (c.acceptBad = CONFIG_YES) ∧
    flagTest (ifFlags c e f) IFB_V4VIAV6 =
      (decide (c.v4viav6 ≠ CONFIG_NO) && (decide (c.v4viav6 = CONFIG_YES) || e.safeV4viaV6)) ∧
    flagTest (ifFlags c e f) IFB_PROBE_MTU = (decide (c.probeMtu = CONFIG_YES) || flagTest f IFB_PROBE_MTU) := by
  unfold ifFlags
  simp only
  simp [flagTest_setFlag, flagTest_ite, flagTest_ite', IFB_UP, IFB_WIRELESS, IFB_SPLIT_HORIZON, IFB_LQ, IFB_FARAWAY,
    IFB_UNICAST, IFB_TIMESTAMPS, IFB_RFC6126, IFB_ACCEPT_BAD_SIGNATURES, IFB_V4VIAV6, IFB_PROBE_MTU]

theorem flagTest_up (f : BitVec 16) : flagTest (flagSet f IFB_UP) IFB_UP = true ∧
    ∀ b, b < 16 → b ≠ IFB_UP → flagTest (flagSet f IFB_UP) b = flagTest f b := by
  refine ⟨by rw [flagTest_set _ _ _ (by decide)]; simp, fun b hb hne => ?_⟩
  rw [flagTest_set _ _ _ hb]
  have : (IFB_UP == b) = false := by simpa using Ne.symm hne
  rw [this, Bool.or_false]

theorem flagTest_down (f : BitVec 16) : flagTest (flagClear f IFB_UP) IFB_UP = false ∧
    ∀ b, b < 16 → b ≠ IFB_UP → flagTest (flagClear f IFB_UP) b = flagTest f b := by
  refine ⟨by rw [flagTest_clear _ _ _ (by decide)]; simp, fun b hb hne => ?_⟩
  rw [flagTest_clear _ _ _ hb]
  have : (IFB_UP == b) = false := by simpa using Ne.symm hne
  rw [this]; simp

theorem bringUp_ok {conf : Option IfConf} {e : IfEnv} {i : IfData} (h : Succeeds e) :
    ifBringUp conf e i = { ifParams (conf.getD {}) e { i with flags := flagSet i.flags IFB_UP, bufSize := sendBufferSize e.mtu }
      with key := (conf.getD {}).key } := by
  obtain ⟨h1, h2, h3, h4⟩ := h
  unfold ifBringUp
  simp only
  rw [if_neg h1, if_neg (by omega), if_neg (by omega), if_neg (by omega)]

theorem bringUp_fail {conf : Option IfConf} {e : IfEnv} {i : IfData} (h : ¬ Succeeds e) :
    flagTest (ifBringUp conf e i).flags IFB_UP = false ∧ (ifBringUp conf e i).bufSize = 0 ∧
    (ifBringUp conf e i).key = i.key := by
  unfold ifBringUp
  simp only
  split
  · exact ⟨(flagTest_down _).1, rfl, rfl⟩
  · split
    · exact ⟨(flagTest_down _).1, rfl, rfl⟩
    · split
      · exact ⟨(flagTest_down _).1, rfl, rfl⟩
      · split
        · exact ⟨(flagTest_down _).1, rfl, rfl⟩
        · exact absurd ⟨‹_›, by omega, by omega, by omega⟩ h

theorem bringUp_up (conf : Option IfConf) (e : IfEnv) (i : IfData) :
    flagTest (ifBringUp conf e i).flags IFB_UP = true ↔ Succeeds e := by
  by_cases h : Succeeds e
  · refine ⟨fun _ => h, fun _ => ?_⟩
    rw [bringUp_ok h]
    show flagTest (ifFlags _ _ _) IFB_UP = true
    rw [(ifFlags_test _ _ _).1]
    exact (flagTest_up _).1
  · rw [(bringUp_fail h).1]
    simp [h]

/-- Flags that are only ever set. -/
theorem bringUp_sticky (conf : Option IfConf) (e : IfEnv) (i : IfData) (b : Nat) (yes : IfConf → Nat) (hb : b < 16) (hne : b ≠ IFB_UP)
    (h : ∀ f, flagTest (ifFlags (conf.getD {}) e f) b = (decide (yes (conf.getD {}) = CONFIG_YES) || flagTest f b)) :
    flagTest (ifBringUp conf e i).flags b = true ↔
      flagTest i.flags b = true ∨ HostReady e ∧ yes (conf.getD {}) = CONFIG_YES := by
  have hs : ∀ f : BitVec 16, flagTest (flagClear f IFB_UP) b = flagTest f b := fun f => (flagTest_down f).2 b hb hne
  have hu : ∀ f : BitVec 16, flagTest (flagSet f IFB_UP) b = flagTest f b := fun f => (flagTest_up f).2 b hb hne
  have hp : ∀ i : IfData, flagTest (ifParams (conf.getD {}) e i).flags b =
      (decide (yes (conf.getD {}) = CONFIG_YES) || flagTest i.flags b) := fun i => h _
  unfold HostReady ifBringUp
  simp only
  by_cases h1 : e.ifindex = 0
  · rw [if_pos h1]
    show flagTest (flagClear _ _) b = true ↔ _
    rw [hs, hu]; simp [h1]
  · by_cases h2 : e.setup < 0
    · rw [if_neg h1, if_pos h2]
      show flagTest (flagClear _ _) b = true ↔ _
      rw [hs, hu]
      constructor
      · exact .inl
      · rintro (h | ⟨⟨_, h⟩, _⟩)
        · exact h
        · omega
    · have key : ∀ x : IfData, flagTest x.flags b = flagTest (ifParams (conf.getD {}) e
          { { i with flags := flagSet i.flags IFB_UP } with bufSize := sendBufferSize e.mtu }).flags b →
          (flagTest x.flags b = true ↔ flagTest i.flags b = true ∨ (e.ifindex ≠ 0 ∧ 0 ≤ e.setup) ∧ yes (conf.getD {}) = CONFIG_YES) := by
        intro x hx
        rw [hx, hp]
        show (_ || flagTest (flagSet i.flags IFB_UP) b) = true ↔ _
        rw [hu]
        simp only [Bool.or_eq_true, decide_eq_true_eq]
        constructor
        · rintro (h | h)
          · exact .inr ⟨⟨h1, by omega⟩, h⟩
          · exact .inl h
        · rintro (h | ⟨_, h⟩)
          · exact .inr h
          · exact .inl h
      rw [if_neg h1, if_neg h2]
      split
      · exact key _ (hs _)
      · split
        · exact key _ (hs _)
        · exact key _ rfl

end Babel
