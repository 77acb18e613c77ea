import Verif.Spec.Local
set_option linter.unusedSimpArgs false
set_option linter.unusedVariables false
namespace Babel
open Spec

theorem split_stream (t : Bytes) : Received t (splitText t).1 (splitText t).2 := by
  induction t with
  | nil => exact ⟨rfl, by simp [splitText], by simp [splitText]⟩
  | cons c t ih =>
    obtain ⟨h1, h2, h3⟩ := ih
    unfold splitText
    by_cases hc : c = 10
    · subst hc
      rw [if_pos rfl]
      refine ⟨by simp only [List.flatten_cons, List.append_assoc]; rw [← h1]; rfl, ?_, h3⟩
      intro l hl
      rw [List.mem_cons] at hl
      rcases hl with rfl | hl
      · exact ⟨[], rfl, by simp⟩
      · exact h2 l hl
    · rw [if_neg hc]
      rcases hs : splitText t with ⟨ls, r⟩
      rw [hs] at h1 h2 h3
      rcases ls with _ | ⟨l, ls⟩
      · refine ⟨by simp at h1 ⊢; exact h1, by simp, ?_⟩
        simp only [List.mem_cons, not_or]
        exact ⟨Ne.symm hc, h3⟩
      · refine ⟨by simp at h1 ⊢; exact h1, ?_, h3⟩
        intro x hx
        rw [List.mem_cons] at hx
        rcases hx with rfl | hx
        · obtain ⟨b, rfl, hb⟩ := h2 l (by simp)
          exact ⟨c :: b, rfl, by simp only [List.mem_cons, not_or]; exact ⟨Ne.symm hc, hb⟩⟩
        · exact h2 x (by simp [hx])

theorem split_line (b t : Bytes) (hb : 10 ∉ b) :
    splitText (b ++ [10] ++ t) = ((b ++ [10]) :: (splitText t).1, (splitText t).2) := by
  induction b with
  | nil => simp [splitText]
  | cons c b ih =>
    simp only [List.mem_cons, not_or] at hb
    have := ih hb.2
    simp only [List.cons_append] at this ⊢
    rw [splitText, if_neg (Ne.symm hb.1), this]

theorem split_rest (t : Bytes) (h : 10 ∉ t) : splitText t = ([], t) := by
  induction t with
  | nil => rfl
  | cons c t ih =>
    simp only [List.mem_cons, not_or] at h
    rw [splitText, if_neg (Ne.symm h.1), ih h.2]

theorem stream_split {t : Bytes} {ls : List Bytes} {r : Bytes} (h : Received t ls r) : splitText t = (ls, r) := by
  obtain ⟨rfl, h2, h3⟩ := h
  induction ls with
  | nil => simpa using split_rest r h3
  | cons l ls ih =>
    obtain ⟨b, rfl, hb⟩ := h2 l (by simp)
    have := ih (fun x hx => h2 x (by simp [hx]))
    rw [List.flatten_cons, List.append_assoc, split_line b _ hb, this]

/-- Lines of a text split in two. -/
theorem split_append (a b : Bytes) :
    splitText (a ++ b) = ((splitText a).1 ++ (splitText ((splitText a).2 ++ b)).1, (splitText ((splitText a).2 ++ b)).2) := by
  have h1 := split_stream a
  have h2 := split_stream ((splitText a).2 ++ b)
  refine stream_split ⟨?_, ?_, h2.rest⟩
  · have e1 := h1.eq
    have e2 := h2.eq
    rw [List.flatten_append, List.append_assoc, ← e2, ← List.append_assoc, ← e1]
  · intro l hl
    rw [List.mem_append] at hl
    exact hl.elim (h1.lines l) (h2.lines l)

theorem outcomes_append (L : Libc) (s : Conf) (a b : List Bytes) :
    outcomes L s (a ++ b) = outcomes L s a ++ outcomes L (configured L s a) b := by
  induction a generalizing s with
  | nil => rfl
  | cons l a ih => simp [outcomes, configured, ih]

theorem configured_append (L : Libc) (s : Conf) (a b : List Bytes) :
    configured L s (a ++ b) = configured L (configured L s a) b := by
  simp [configured]

theorem outcomes_length (L : Libc) (s : Conf) (a : List Bytes) : (outcomes L s a).length = a.length := by
  induction a generalizing s with
  | nil => rfl
  | cons l a ih => simp [outcomes, ih]

theorem replyOf_snoc (rs : List (Except Fail LineAct)) (r : Except Fail LineAct) (h : GoesOn r) :
    replyAfter (replyOf rs) r = replyOf (rs ++ [r]) := by
  unfold replyOf lastFailure
  rw [List.reverse_append, List.reverse_singleton, List.singleton_append, List.find?_cons]
  rcases r with e | a
  · simp [replyAfter, answer]
  · cases a <;> simp [replyAfter, answer, GoesOn] at h ⊢

theorem answer_ne (r : Except Fail LineAct) : answer r ≠ [] := by
  rcases r with e | a
  · simp only [answer]; decide
  · cases a <;> simp only [answer] <;> decide

theorem replyOf_ne (rs : List (Except Fail LineAct)) : replyOf rs ≠ [] := by
  unfold replyOf
  split
  · exact answer_ne _
  · decide

theorem sockAfter_eq (k : Sock) (r : Except Fail LineAct) (h : GoesOn r) :
    sockAfter k r = ({ k with monitor := monitors k.monitor r }, tablesFirst r) := by
  rcases r with e | a
  · simp [sockAfter, monitors, tablesFirst]
  · cases a <;> simp [sockAfter, monitors, tablesFirst, GoesOn] at h ⊢

theorem isDoubleFree_false (r : Except Fail LineAct) (h : GoesOn r) : isDoubleFree r = false := by
  rcases r with e | a
  · cases e <;> simp [isDoubleFree, GoesOn] at h ⊢
  · rfl

theorem take_line {b t : Bytes} (hb : 10 ∉ b) :
    (b ++ [10] ++ t).takeWhile (· != 10) = b ∧ (b ++ [10] ++ t).contains 10 = true := by
  constructor
  · rw [List.append_assoc, List.takeWhile_append_of_pos]
    · simp
    · intro x hx
      simp only [bne_iff_ne, ne_eq]
      rintro rfl
      exact hb hx
  · simp

/-- One line of the loop. -/
theorem localLoop_line (L : Libc) (fuel : Nat) (before : List (Except Fail LineAct)) (s : Conf) (k : Sock) (b t : Bytes)
    (hb : 10 ∉ b) (hk : k.buf = b ++ [10] ++ t) (hs : k.shut = false) (hg : GoesOn (parseString L s (b ++ [10])).2) :
    localLoop L (fuel + 1) [] (replyOf before) (s, k) =
      (let r := (parseString L s (b ++ [10])).2
       let x := localLoop L fuel [] (replyOf (before ++ [r])) ((parseString L s (b ++ [10])).1,
        { k with buf := t, monitor := monitors k.monitor r })
       (x.1, x.2.1, tablesFirst r ++ .reply (replyOf (before ++ [r])) :: x.2.2.1, x.2.2.2)) := by
  obtain ⟨e1, e2⟩ := take_line (t := t) hb
  have e3 : (b ++ [10] ++ t).drop (b ++ [10]).length = t := List.drop_left
  rw [localLoop]
  simp only [hk, e1, e2, not_true_eq_false, if_false]
  rcases hp : parseString L s (b ++ [10]) with ⟨s', r⟩
  rw [hp] at hg
  simp only [isDoubleFree_false r hg, Bool.false_eq_true, if_false, replyOf_snoc before r hg, sockAfter_eq k r hg,
    replyOf_ne, e3, hk, canWrite, hs, List.head?_nil, Option.getD_none, List.tail_nil]

theorem localLoop_stream (L : Libc) : ∀ (fuel : Nat) (ls : List Bytes) (rest : Bytes) (before : List (Except Fail LineAct)) (s : Conf) (k : Sock),
    ls.length ≤ fuel → Received k.buf ls rest → k.shut = false → (∀ r ∈ outcomes L s ls, GoesOn r) →
    localLoop L fuel [] (replyOf before) (s, k) =
      (configured L s ls, { k with buf := rest, monitor := (outcomes L s ls).foldl monitors k.monitor },
        stickyReplies before (outcomes L s ls), .ok) := by
  intro fuel
  induction fuel with
  | zero =>
    intro ls rest before s k hf h hs hg
    have : ls = [] := by simpa using hf
    subst this
    have := h.eq
    simp only [List.flatten_nil, List.nil_append] at this
    rw [localLoop]
    simp [configured, outcomes, stickyReplies, ← this]
  | succ fuel ih =>
    intro ls rest before s k hf h hs hg
    rcases ls with _ | ⟨l, ls⟩
    · have h1 := h.eq
      simp only [List.flatten_nil, List.nil_append] at h1
      have h2 : k.buf.contains 10 = false := by rw [h1]; simpa using h.rest
      rw [localLoop]
      simp only [h2, Bool.false_eq_true, not_false_eq_true, if_true]
      simp [configured, outcomes, stickyReplies, ← h1]
    · obtain ⟨b, rfl, hb⟩ := h.lines l (by simp)
      have h1 : k.buf = b ++ [10] ++ (ls.flatten ++ rest) := by
        have := h.eq
        simp only [List.flatten_cons, List.append_assoc] at this ⊢
        exact this
      rw [localLoop_line L fuel before s k b _ hb h1 hs (hg _ (by simp [outcomes]))]
      simp only
      rw [ih ls rest _ _ { k with buf := ls.flatten ++ rest, monitor := monitors k.monitor (parseString L s (b ++ [10])).2 } (by simpa using hf) ⟨rfl, fun x hx => h.lines x (by simp [hx]), h.rest⟩ hs
        (fun r hr => hg r (by simp [outcomes, hr]))]
      simp only [outcomes, configured, List.foldl_cons, stickyReplies]

theorem lines_length {t : Bytes} {ls : List Bytes} {r : Bytes} (h : Received t ls r) : ls.length ≤ t.length := by
  obtain ⟨rfl, h2, h3⟩ := h
  induction ls with
  | nil => simp
  | cons l ls ih =>
    obtain ⟨b, rfl, hb⟩ := h2 l (by simp)
    have := ih (fun x hx => h2 x (by simp [hx]))
    simp at this ⊢
    omega

theorem localRead_stream (L : Libc) (s : Conf) (k : Sock) (b : Bytes) (ls : List Bytes) (rest : Bytes)
    (h1 : k.buf.length < 1024) (h2 : k.buf.length + b.length ≤ 1024) (h : Received (k.buf ++ b) ls rest) (hs : k.shut = false)
    (hg : ∀ r ∈ outcomes L s ls, GoesOn r) :
    localRead L (.data b) [] s k =
      (configured L s ls, { k with buf := rest, monitor := (outcomes L s ls).foldl monitors k.monitor },
        stickyReplies [] (outcomes L s ls), .ok) := by
  unfold localRead LOCAL_BUFSIZE
  rw [if_neg (by omega)]
  simp only
  have e : b.take (1024 - k.buf.length) = b := List.take_of_length_le (by omega)
  rw [e]
  exact localLoop_stream L _ ls rest [] s { k with buf := k.buf ++ b } (lines_length h) h hs hg

theorem session_stream (L : Libc) (bs : List Bytes) : ∀ (s : Conf) (k : Sock), k.shut = false →
    Reads k.buf bs → 10 ∉ k.buf → (∀ r ∈ outcomes L s (splitText (k.buf ++ bs.flatten)).1, GoesOn r) →
    session L bs s k =
      (configured L s (splitText (k.buf ++ bs.flatten)).1,
        { k with buf := (splitText (k.buf ++ bs.flatten)).2,
                 monitor := (outcomes L s (splitText (k.buf ++ bs.flatten)).1).foldl monitors k.monitor },
        sentReplies L k.buf s bs, .ok) := by
  induction bs with
  | nil =>
    intro s k hs _ hp _
    simp only [List.flatten_nil, List.append_nil, split_rest _ hp]
    rfl
  | cons b bs ih =>
    intro s k hs hr hp hg
    obtain ⟨r1, r2, r3⟩ := hr
    have e : splitText (k.buf ++ (b :: bs).flatten) = ((splitText (k.buf ++ b)).1 ++ (splitText ((splitText (k.buf ++ b)).2 ++ bs.flatten)).1,
        (splitText ((splitText (k.buf ++ b)).2 ++ bs.flatten)).2) := by
      rw [List.flatten_cons, ← List.append_assoc, split_append]
    rw [e] at hg ⊢
    simp only [outcomes_append, List.mem_append] at hg
    have h1 := localRead_stream L s k b _ _ r1 r2 (split_stream _) hs (fun r hr => hg r (.inl hr))
    rw [session, h1]
    simp only
    rw [ih _ _ (by exact hs) (by exact r3) (by exact (split_stream (k.buf ++ b)).rest) (fun r hr => hg r (.inr hr))]
    simp only [configured_append, outcomes_append, List.foldl_append, sentReplies]

theorem stickyReplies_length (rs before : List (Except Fail LineAct)) :
    (stickyReplies before rs).countP isReply = rs.length := by
  induction rs generalizing before with
  | nil => rfl
  | cons r rs ih =>
    unfold stickyReplies
    rw [List.countP_append, List.countP_cons_of_pos (by rfl), ih]
    have : (tablesFirst r).countP isReply = 0 := by
      rcases r with e | a
      · rfl
      · cases a <;> rfl
    rw [this, List.length_cons]; omega

theorem sentReplies_length (L : Libc) (bs : List Bytes) : ∀ (p : Bytes) (s : Conf), 10 ∉ p →
    (sentReplies L p s bs).countP isReply =
      (splitText (p ++ bs.flatten)).1.length := by
  induction bs with
  | nil => intro p s h; simp [sentReplies, split_rest p h]
  | cons b bs ih =>
    intro p s h
    unfold sentReplies
    rw [List.countP_append, stickyReplies_length, ih _ _ (split_stream _).rest, outcomes_length,
      List.flatten_cons, ← List.append_assoc, split_append (p ++ b), List.length_append]

theorem sentReplies_single (L : Libc) (bs : List Bytes) : ∀ (p : Bytes) (s : Conf), 10 ∉ p → (∀ b ∈ bs, b.count 10 ≤ 1) →
    sentReplies L p s bs =
      (outcomes L s (splitText (p ++ bs.flatten)).1).flatMap fun r => tablesFirst r ++ [.reply (answer r)] := by
  induction bs with
  | nil => intro p s h _; simp [sentReplies, split_rest p h, outcomes]
  | cons b bs ih =>
    intro p s h hc
    unfold sentReplies
    rw [ih _ _ (split_stream _).rest (fun x hx => hc x (by simp [hx])), List.flatten_cons, ← List.append_assoc,
      split_append (p ++ b)]
    simp only [outcomes_append, List.flatMap_append]
    congr 1
    have hn : (splitText (p ++ b)).1.length ≤ 1 := by
      have h1 := split_stream (p ++ b)
      have h2 : (p ++ b).count 10 ≤ 1 := by
        rw [List.count_append, List.count_eq_zero.2 h]
        have := hc b (by simp)
        omega
      rw [h1.eq, List.count_append] at h2
      rcases he : (splitText (p ++ b)).1 with _ | ⟨l, _ | ⟨l', ls⟩⟩
      · simp
      · simp
      · exfalso
        rw [he] at h1 h2
        obtain ⟨x, rfl, _⟩ := h1.lines l (by simp)
        obtain ⟨y, rfl, _⟩ := h1.lines l' (by simp)
        simp at h2
        omega
    rcases he : (splitText (p ++ b)).1 with _ | ⟨l, _ | ⟨l', ls⟩⟩
    · rfl
    · simp only [outcomes, stickyReplies, List.flatMap_cons, List.flatMap_nil, List.append_nil, List.nil_append]
      rcases (parseString L s l).2 with e | a
      · rfl
      · cases a <;> rfl
    · rw [he] at hn; simp at hn

end Babel
