import Verif.Lemmas.Local
import Verif.Props.Config
/-
Theorems about control connections: C46 lines and replies, C53 clients that do not read.
-/
set_option linter.unusedSimpArgs false
set_option linter.unusedVariables false
namespace Babel
open Spec

/-! ### C46: lines and replies -/

/-- However the characters received are split over reads, exactly the complete lines of the stream
are obeyed, one after the other and each once; the incomplete line at the end is kept. -/
theorem C46_lines (L : Libc) (s : Conf) (bs ls : List Bytes) (rest : Bytes) (hr : Reads [] bs)
    (h : Received bs.flatten ls rest) (hg : ∀ r ∈ outcomes L s ls, GoesOn r) :
    (session L bs s {}).1 = configured L s ls ∧ (session L bs s {}).2.1.buf = rest ∧
      (session L bs s {}).2.1.monitor = (outcomes L s ls).foldl monitors false ∧
      (session L bs s {}).2.1.shut = false ∧ (session L bs s {}).2.2.2 = .ok := by
  have e := stream_split h
  rw [session_stream L bs s {} rfl hr (by simp) (by simpa [e] using hg)]
  simp [e]

/-- Each complete line is answered exactly once. -/
theorem C46_one_reply (L : Libc) (s : Conf) (bs ls : List Bytes) (rest : Bytes) (hr : Reads [] bs)
    (h : Received bs.flatten ls rest) (hg : ∀ r ∈ outcomes L s ls, GoesOn r) :
    (session L bs s {}).2.2.1.countP isReply = ls.length := by
  have e := stream_split h
  rw [session_stream L bs s {} rfl hr (by simp) (by simpa [e] using hg)]
  simp only
  rw [sentReplies_length L bs [] s (by simp)]
  simp [e]

/-- If no read completes more than one line, the answers are those of the lines, in order. -/
theorem C46_answers (L : Libc) (s : Conf) (bs ls : List Bytes) (rest : Bytes) (hr : Reads [] bs)
    (h : Received bs.flatten ls rest) (hg : ∀ r ∈ outcomes L s ls, GoesOn r) (h1 : ∀ b ∈ bs, b.count 10 ≤ 1) :
    (session L bs s {}).2.2.1 = (outcomes L s ls).flatMap fun r => tablesFirst r ++ [.reply (answer r)] := by
  have e := stream_split h
  rw [session_stream L bs s {} rfl hr (by simp) (by simpa [e] using hg)]
  simp only
  rw [sentReplies_single L bs [] s (by simp) h1]
  simp [e]

/-- In general the answer to a line is that to the last line of the same read that failed. -/
theorem C46_sticky (L : Libc) (s : Conf) (bs ls : List Bytes) (rest : Bytes) (hr : Reads [] bs)
    (h : Received bs.flatten ls rest) (hg : ∀ r ∈ outcomes L s ls, GoesOn r) :
    (session L bs s {}).2.2.1 = sentReplies L [] s bs := by
  have e := stream_split h
  rw [session_stream L bs s {} rfl hr (by simp) (by simpa [e] using hg)]

/-- The same two lines in one read and in two: only in the second case does the reply to the second
line tell its outcome. -/
theorem C46_sticky_false :
    (session DemoConf.L [ascii "what\ndump\n"] { final := true } {}).2.2.1 =
      [.reply (ascii "bad\n"), .tables, .reply (ascii "bad\n")] ∧
    (session DemoConf.L [ascii "what\ndu", ascii "mp\n"] { final := true } {}).2.2.1 =
      [.reply (ascii "bad\n"), .tables, .reply (ascii "ok\n")] := by
  decide +kernel

example : Reads [] [ascii "what\ndu", ascii "mp\n"] ∧ Received (ascii "what\ndump\n") [ascii "what\n", ascii "dump\n"] [] ∧
    outcomes DemoConf.L { final := true } [ascii "what\n", ascii "dump\n"] = [.error .bad, .ok .dump] := by
  refine ⟨by refine ⟨by decide +kernel, by decide +kernel, by decide +kernel, by decide +kernel, trivial⟩,
    ⟨by decide +kernel, ?_, by decide +kernel⟩, by decide +kernel⟩
  intro l hl
  simp only [List.mem_cons, List.not_mem_nil, or_false] at hl
  rcases hl with rfl | rfl
  · exact ⟨ascii "what", by decide +kernel, by decide +kernel⟩
  · exact ⟨ascii "dump", by decide +kernel, by decide +kernel⟩

/-- `quit` closes the connection without a reply. -/
theorem C46_quit (L : Libc) (s : Conf) (k : Sock) (b l : Bytes) (h1 : k.buf.length < 1024)
    (h2 : k.buf.length + b.length ≤ 1024) (h : Received (k.buf ++ b) [l] []) (hq : (parseString L s l).2 = .ok .quit) :
    localRead L (.data b) [] s k = ((parseString L s l).1, { k with buf := [], shut := true }, [.close], .ok) := by
  obtain ⟨c, rfl, hc⟩ := h.lines l (by simp)
  have e := h.eq
  simp only [List.flatten_cons, List.flatten_nil, List.append_nil] at e
  obtain ⟨e1, e2⟩ := take_line (t := []) hc
  rw [List.append_nil] at e1 e2
  unfold localRead LOCAL_BUFSIZE
  rw [if_neg (by omega)]
  simp only
  have e3 : b.take (1024 - k.buf.length) = b := List.take_of_length_le (by omega)
  rw [e3, e]
  have e4 : (c ++ [10]).length = c.length + 1 := by simp
  rw [e4, localLoop]
  simp only [e1, e2, not_true_eq_false, if_false]
  rcases hp : parseString L s (c ++ [10]) with ⟨s', r⟩
  rw [hp] at hq
  simp only at hq
  subst hq
  simp only [isDoubleFree, Bool.false_eq_true, if_false, replyAfter, if_true, sockAfter, List.drop_length]
  have e5 : ∀ n reply, localLoop L n [] reply (s', { k with buf := [], shut := true }) =
      (s', { k with buf := [], shut := true }, [], .ok) := by
    intro n reply
    cases n
    · rfl
    · simp [localLoop]
  rw [e5]
  rfl

example : localRead DemoConf.L (.data (ascii "uit\n")) [] {} { buf := ascii "q" } =
    ({}, { shut := true }, [.close], .ok) := by decide +kernel

/-- Lines that follow `quit` in the same read are still executed; as long as they succeed, nothing is said about
them. -/
theorem localLoop_silent (L : Libc) : ∀ (fuel : Nat) (ls : List Bytes) (rest : Bytes) (s : Conf) (k : Sock),
    ls.length ≤ fuel → Received k.buf ls rest → k.shut = true →
    (∀ r ∈ outcomes L s ls, r = .ok .done) →
    localLoop L fuel [] [] (s, k) = (configured L s ls, { k with buf := rest }, [], .ok) := by
  intro fuel
  induction fuel with
  | zero =>
    intro ls rest s k hf h hs hg
    obtain rfl : ls = [] := List.length_eq_zero_iff.1 (by omega)
    have := h.eq
    simp only [List.flatten_nil, List.nil_append] at this
    rw [← this]
    rfl
  | succ fuel ih =>
    intro ls rest s k hf h hs hg
    cases ls with
    | nil =>
      have e := h.eq
      simp only [List.flatten_nil, List.nil_append] at e
      have hr := h.rest
      rw [← e] at hr
      rw [localLoop, if_pos (by simpa using hr), ← e]
      rfl
    | cons l ls =>
      obtain ⟨b, rfl, hb⟩ := h.lines l (by simp)
      have e : k.buf = b ++ [10] ++ (ls.flatten ++ rest) := by
        have := h.eq
        simp only [List.flatten_cons, List.append_assoc] at this ⊢
        exact this
      obtain ⟨e1, e2⟩ := take_line (t := ls.flatten ++ rest) hb
      have e3 : (b ++ [10] ++ (ls.flatten ++ rest)).drop (b ++ [10]).length = ls.flatten ++ rest := List.drop_left
      simp only [outcomes, List.mem_cons, forall_eq_or_imp] at hg
      rw [localLoop]
      simp only [e, e1, e2, not_true_eq_false, if_false]
      rcases hp : parseString L s (b ++ [10]) with ⟨s', r⟩
      rw [hp] at hg
      obtain ⟨rfl, hg⟩ := hg
      simp only [isDoubleFree, Bool.false_eq_true, if_false, replyAfter, if_true, sockAfter, e, e3]
      rw [ih ls rest s' { k with buf := ls.flatten ++ rest } (by simp at hf; omega)
        ⟨rfl, fun x hx => h.lines x (by simp [hx]), h.rest⟩ hs hg]
      simp [configured, hp]

/-- Lines that follow `quit` in the same read are still executed. -/
theorem C46_after_quit (L : Libc) (s : Conf) (k : Sock) (b l rest : Bytes) (ls : List Bytes) (h1 : k.buf.length < 1024)
    (h2 : k.buf.length + b.length ≤ 1024) (h : Received (k.buf ++ b) (l :: ls) rest)
    (hq : (parseString L s l).2 = .ok .quit) (hg : ∀ r ∈ outcomes L (parseString L s l).1 ls, r = .ok .done) :
    localRead L (.data b) [] s k = (configured L s (l :: ls), { k with buf := rest, shut := true }, [.close], .ok) := by
  have hlen := lines_length h
  obtain ⟨c, rfl, hc⟩ := h.lines l (by simp)
  have e : k.buf ++ b = c ++ [10] ++ (ls.flatten ++ rest) := by
    have := h.eq
    simp only [List.flatten_cons, List.append_assoc] at this ⊢
    exact this
  obtain ⟨e1, e2⟩ := take_line (t := ls.flatten ++ rest) hc
  have e3 : b.take (1024 - k.buf.length) = b := List.take_of_length_le (by omega)
  have e4 : (c ++ [10] ++ (ls.flatten ++ rest)).drop (c ++ [10]).length = ls.flatten ++ rest := List.drop_left
  unfold localRead LOCAL_BUFSIZE
  rw [if_neg (by omega)]
  simp only
  rw [e3]
  rw [e] at hlen ⊢
  generalize hf : (c ++ [10] ++ (ls.flatten ++ rest)).length = f at hlen ⊢
  cases f with
  | zero => simp at hlen
  | succ f =>
    rw [localLoop]
    simp only [e1, e2, not_true_eq_false, if_false]
    rcases hp : parseString L s (c ++ [10]) with ⟨s', r⟩
    rw [hp] at hq hg
    simp only at hq
    subst hq
    simp only [isDoubleFree, Bool.false_eq_true, if_false, replyAfter, if_true, sockAfter, e4]
    rw [localLoop_silent L f ls rest s' { k with buf := ls.flatten ++ rest, shut := true } (by simpa using hlen)
      ⟨rfl, fun x hx => h.lines x (by simp [hx]), h.rest⟩ rfl hg]
    simp [configured, hp]

example : localRead DemoConf.L (.data (ascii "quit\ninterface eth0\nx")) [] {} {} =
    ({ (parseString DemoConf.L {} (ascii "interface eth0\n")).1 with }, { buf := ascii "x", shut := true }, [.close], .ok) ∧
    outcomes DemoConf.L {} [ascii "interface eth0\n"] = [.ok .done] := by decide +kernel

/-- Once the connection has been closed, the next line that calls for a reply ends it. -/
theorem C46_after_close (L : Libc) (s : Conf) (k : Sock) (b l rest : Bytes) (ls : List Bytes) (full : List Bool)
    (h1 : k.buf.length < 1024) (h2 : k.buf.length + b.length ≤ 1024) (h : Received (k.buf ++ b) (l :: ls) rest)
    (hs : k.shut = true) (hg : GoesOn (parseString L s l).2) :
    (localRead L (.data b) full s k).2.2.2 = .fail .other := by
  obtain ⟨c, rfl, hc⟩ := h.lines l (by simp)
  have e := h.eq
  have e' : k.buf ++ b = c ++ [10] ++ (ls.flatten ++ rest) := by
    simp only [List.flatten_cons, List.append_assoc] at e ⊢; exact e
  obtain ⟨e1, e2⟩ := take_line (t := ls.flatten ++ rest) hc
  unfold localRead LOCAL_BUFSIZE
  rw [if_neg (by omega)]
  simp only
  have e3 : b.take (1024 - k.buf.length) = b := List.take_of_length_le (by omega)
  rw [e3, e']
  obtain ⟨n, hn⟩ : ∃ n, (c ++ [10] ++ (ls.flatten ++ rest)).length = n + 1 :=
    ⟨c.length + (ls.flatten ++ rest).length, by simp; omega⟩
  rw [hn, localLoop]
  simp only [e1, e2, not_true_eq_false, if_false]
  rcases hp : parseString L s (c ++ [10]) with ⟨s', r⟩
  rw [hp] at hg
  have e6 : replyAfter (ascii "ok\n") r ≠ [] := by
    have := replyOf_snoc [] r hg
    have e7 : replyOf [] = ascii "ok\n" := rfl
    rw [e7] at this
    rw [this]
    exact replyOf_ne _
  simp only [isDoubleFree_false r hg, Bool.false_eq_true, if_false, e6, sockAfter_eq _ r hg, canWrite, hs, if_true]

example : (localRead DemoConf.L (.data (ascii "dump\n")) [] {} { shut := true }).2.2.2 = .fail .other := by decide +kernel

/-- A line of 1024 characters or more ends the connection. -/
theorem C46_too_long (L : Libc) (rd : ReadRes) (full : List Bool) (s : Conf) (k : Sock) (h : 1024 ≤ k.buf.length) :
    localRead L rd full s k = (s, { k with shut := true }, [.close], .fail .other) := by
  unfold localRead LOCAL_BUFSIZE
  rw [if_pos h]

example : (session DemoConf.L [List.replicate 1024 65, ascii "\n"] {} {}).2.2 = ([.close], .fail .other) := by
  decide +kernel

/-! ### C53: the main loop and its clients -/

theorem localLoop_again (L : Libc) (fuel : Nat) : ∀ (full : List Bool) (reply : Bytes) (sk : Conf × Sock), (∀ x ∈ full, x = false) →
    (localLoop L fuel full reply sk).2.2.2 ≠ .fail .again := by
  induction fuel with
  | zero => intro full reply ⟨s, k⟩ _; rw [localLoop]; simp
  | succ fuel ih =>
    intro full reply ⟨s, k⟩ hf
    rw [localLoop]
    split
    · simp
    · simp only
      split
      · simp
      · split
        · exact ih full _ _ hf
        · have hh : full.head?.getD false = false := by
            rcases full with _ | ⟨x, full⟩
            · rfl
            · exact hf x (by simp)
          have ht : ∀ x ∈ full.tail, x = false := fun x hx => hf x (List.mem_of_mem_tail hx)
          rw [hh]
          unfold canWrite
          rcases hs : (sockAfter k (parseString L s (k.buf.takeWhile (· != 10) ++ [10])).2).1.shut
          · simp only [Bool.false_eq_true, if_false]
            exact ih full.tail _ _ ht
          · simp

/-- If a client takes the replies it is sent, the main loop turns to its other tasks after one
call. -/
theorem C53_progress (L : Libc) (s : Conf) (k : Sock) (b : Bytes) (full : List Bool) (env : List (ReadRes × List Bool))
    (h : ∀ x ∈ full, x = false) : serve L ((.data b, full) :: env) s k ≠ none := by
  have hr : (localRead L (.data b) full s k).2.2.2 ≠ .fail .again := by
    unfold localRead
    split
    · simp
    · exact localLoop_again L _ _ _ _ h
  rw [serve]
  rcases hx : localRead L (.data b) full s k with ⟨s', k', o, res⟩
  rw [hx] at hr
  rcases res with _ | _ | e | _
  · simp
  · simp
  · rcases e with _ | _
    · simp at hr
    · simp
  · simp

example : (serve DemoConf.L [(.data (ascii "what\n"), [false])] { final := true } {}).isSome = true := by decide +kernel

/-- A client that closes the connection is removed, as is one on which `read` fails, and nothing is executed. -/
theorem C53_closed (L : Libc) (s : Conf) (k : Sock) (full : List Bool) (env : List (ReadRes × List Bool)) (h : k.buf.length < 1024) :
    serve L ((.eof, full) :: env) s k = some (s, k, false) ∧
    serve L ((.err .other, full) :: env) s k = some (s, k, false) := by
  have hn : ¬ k.buf.length ≥ LOCAL_BUFSIZE := by unfold LOCAL_BUFSIZE; omega
  constructor
  · rw [serve]
    unfold localRead
    rw [if_neg hn]
  · rw [serve]
    unfold localRead
    rw [if_neg hn]

example : serve DemoConf.L [(.eof, [])] {} { buf := ascii "half a li" } = some ({}, { buf := ascii "half a li" }, false) := by
  decide +kernel

/-- Not so if a reply cannot be written: then the main loop calls `local_read` over and over, for as
long as the client neither sends anything nor goes away. -/
theorem C53_stall (n : Nat) :
    serve DemoConf.L ((.data (ascii "what\n"), [true]) :: List.replicate n (.err .again, [])) { final := true } {} = none := by
  have h1 : localRead DemoConf.L (.data (ascii "what\n")) [true] { final := true } {} =
      ({ final := true }, { buf := ascii "what\n", shut := true }, [.close], .fail .again) := by decide +kernel
  rw [serve, h1]
  simp only
  induction n with
  | zero => rfl
  | succ n ih =>
    rw [List.replicate_succ, serve]
    have h2 : localRead DemoConf.L (.err .again) [] { final := true } { buf := ascii "what\n", shut := true } =
      ({ final := true }, { buf := ascii "what\n", shut := true }, [], .fail .again) := by decide +kernel
    rw [h2]
    exact ih

end Babel
