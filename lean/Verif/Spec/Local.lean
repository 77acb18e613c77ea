import Verif.Model.Local
/-
What a control connection should do with the characters it receives.
-/
namespace Babel.Spec

/-- A line, with its end. -/
def IsLine (l : Bytes) : Prop := ∃ b : Bytes, l = b ++ [10] ∧ 10 ∉ b

/-- A stream consists of complete lines and a beginning of the next one. -/
structure Received (text : Bytes) (ls : List Bytes) (rest : Bytes) : Prop where
  eq : text = ls.flatten ++ rest
  lines : ∀ l ∈ ls, IsLine l
  rest : 10 ∉ rest

/-- The outcomes of successive lines. -/
def outcomes (L : Libc) : Conf → List Bytes → List (Except Fail LineAct)
  | _, [] => []
  | s, l :: ls => (parseString L s l).2 :: outcomes L (parseString L s l).1 ls

/-- The configuration after successive lines. -/
def configured (L : Libc) (s : Conf) (ls : List Bytes) : Conf :=
  ls.foldl (fun s l => (parseString L s l).1) s

/-- The reply to a line with the given outcome. -/
def answer : Except Fail LineAct → Bytes
  | .ok .noSuchInterface => ascii "no No such interface\n"
  | .ok _ => ascii "ok\n"
  | .error _ => ascii "bad\n"

def isReply : SockOut → Bool
  | .reply _ => true
  | _ => false

/-- `dump` and `monitor` are followed by the contents of all tables. -/
def tablesFirst : Except Fail LineAct → List SockOut
  | .ok .dump => [.tables]
  | .ok .monitor => [.tables]
  | _ => []

/-- The last `monitor` or `unmonitor` decides. -/
def monitors (m : Bool) (r : Except Fail LineAct) : Bool :=
  match r with
  | .ok .monitor => true
  | .ok .unmonitor => false
  | _ => m

/-- Not the end of the conversation: neither `quit` nor an undefined behaviour of the parser. -/
def GoesOn (r : Except Fail LineAct) : Prop := r ≠ .ok .quit ∧ r ≠ .error .doubleFree

/-- The last of the given outcomes that was not a success. -/
def lastFailure (rs : List (Except Fail LineAct)) : Option (Except Fail LineAct) :=
  rs.reverse.find? fun r => match r with
    | .ok .noSuchInterface => true
    | .error _ => true
    | _ => false

/-- The answer to the last of the given lines that failed; "ok" if none did. -/
def replyOf (rs : List (Except Fail LineAct)) : Bytes :=
  match lastFailure rs with
  | some f => answer f
  | none => ascii "ok\n"

/-- What the code sends in reply to the lines that one `read` completes: to each line, the answer to
the last line of that `read` that failed. -/
def stickyReplies (before : List (Except Fail LineAct)) : List (Except Fail LineAct) → List SockOut
  | [] => []
  | r :: rs =>
    tablesFirst r ++ .reply (replyOf (before ++ [r])) :: stickyReplies (before ++ [r]) rs

/-- The complete lines of a text, and the beginning of the next one. -/
def splitText : Bytes → List Bytes × Bytes
  | [] => ([], [])
  | c :: t =>
    if c = 10 then ([10] :: (splitText t).1, (splitText t).2)
    else match splitText t with
      | ([], r) => ([], c :: r)
      | (l :: ls, r) => ((c :: l) :: ls, r)

/-- Each `read` gets no more characters than there is room for, behind the incomplete line `p` left
by the previous ones. -/
def Reads : Bytes → List Bytes → Prop
  | _, [] => True
  | p, b :: bs => p.length < 1024 ∧ p.length + b.length ≤ 1024 ∧ Reads (splitText (p ++ b)).2 bs

/-- What the code sends when it receives the given texts in successive calls of `read`. -/
def sentReplies (L : Libc) : Bytes → Conf → List Bytes → List SockOut
  | _, _, [] => []
  | p, s, b :: bs =>
    stickyReplies [] (outcomes L s (splitText (p ++ b)).1) ++
      sentReplies L (splitText (p ++ b)).2 (configured L s (splitText (p ++ b)).1) bs

end Babel.Spec
