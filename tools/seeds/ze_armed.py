SEEDS = []


def d(file, defn, old, new, claim, **k):
    SEEDS.append(dict(file=file, old=old, new=new, claim=claim, **{"def": defn}, **k))


F = "Model/Resend.lean"
d(F, "recordResend", "if r'.2 then s1 else armResend s1 r'.1", "s1", "C38: the timer is set while an update is to be sent again")
d(F, "expireResend", "    recomputeResendTime\n      { s with", "    { s with resendTime := ⟨0, 0⟩,", "C38: the timer is set while an update is to be sent again")
d(F, "satisfyRequest", "      recomputeResendTime { s with\n", "      { s with\n        resendTime := ⟨0, 0⟩\n", "C38: the timer is set while an update is to be sent again")
d("Model/Queue.lean", "doResend", "recomputeResendTime ((List.range s.resends.length).foldl (doResendOne c) s)", "(List.range s.resends.length).foldl (doResendOne c) (recomputeResendTime s)", "C38: the timer is set while an update is to be sent again")
