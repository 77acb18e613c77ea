SEEDS = []


def d(file, defn, old, new, claim, **k):
    SEEDS.append(dict(file=file, old=old, new=new, claim=claim, **{"def": defn}, **k))


K = "Model/Kernel.lean"
S = "Model/Select.lean"
X = "Model/Xroute.lean"
d(K, "installRoute", "else notifyRoute (markInstalled s1 k n none) .change k n", "else markInstalled s1 k n none", "C78: selecting a route is announced")
d(K, "installRoute", "else notifyRoute (markInstalled s1 k n none) .change k n", "else notifyRoute (markInstalled s1 k n none) .add k n", "C78: only unknown routes are added")
d(K, "installRoute", "else notifyRoute (markInstalled s1 k n none) .change k n", "else markInstalled (notifyRoute s1 .change k n) k n none", "C78: the new state is announced, not the old one")
d(K, "uninstallRoute", "if rc = .ok then notifyRoute s2 .change k n else s2", "s2", "C78: deselecting a route is announced")
d(K, "switchRoutes", "notifyRoute (notifyRoute s3 .change k old) .change k new", "notifyRoute s3 .change k new", "C78: when routes are switched both are announced")
d(K, "switchRoutes", "notifyRoute (notifyRoute s3 .change k old) .change k new", "notifyRoute s3 .change k old", "C78: when routes are switched both are announced")
d(K, "changeRouteMetric", "notifyRoute (modRoute s2 k n (setMetric c s.now.sec refmetric cost add)) .change k n", "modRoute s2 k n (setMetric c s.now.sec refmetric cost add)", "C78: a new metric is announced")
d(S, "flushRoute", "let s2 := unlinkRoute (notifyRoute s1 .flush k n) k n", "let s2 := unlinkRoute s1 k n", "C78: removing a route is announced")
d(S, "flushRoute", "let s2 := unlinkRoute (notifyRoute s1 .flush k n) k n", "let s2 := unlinkRoute (notifyRoute s1 .change k n) k n", "C78: removed routes are announced as such")
d(S, "updateNew", "considerRoute c (notifyRoute s3 .add k n) k n", "considerRoute c s3 k n", "C78: a new route is announced")
d(S, "updateNew", "considerRoute c (notifyRoute s3 .add k n) k n", "notifyRoute (considerRoute c s3 k n) .add k n", "C78: a new route is announced before it is selected")
d(X, "addXroute", "(emit { s with xroutes := xInsert x s.xroutes } (.notifyXroute .add x), true)", "({ s with xroutes := xInsert x s.xroutes }, true)", "C78: a new redistributed route is announced")
d(X, "flushXroute", "let s1 := emit s (.notifyXroute .flush x)", "let s1 := s", "C78: removing a redistributed route is announced")
d(X, "modifyXroute", "(.notifyXroute .change x')", "(.notifyXroute .add x')", "C78: known redistributed routes are changed, not added")
d(X, "modifyXroute", "(.notifyXroute .change x')", "(.notifyXroute .change x)", "C78: the new metric is announced")
