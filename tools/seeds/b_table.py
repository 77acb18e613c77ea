F="Model/Table.lean"; G="Model/RouteTable.lean"
SEEDS=[
 dict(file=F,**{"def":"sourceCompare"},old="(memcmp a.id b.id).then <|\n  (cmpNat a.key.plen",new="(cmpNat a.key.plen",claim="C21 sources of different routers are different"),
 dict(file=F,**{"def":"xrouteCompare"},old="(memcmp a.prefix_ b.prefix_).then <|\n  (cmpNat a.srcPlen b.srcPlen).then <|\n  memcmp a.srcPrefix b.srcPrefix\n\n/-- route",new="(memcmp a.prefix_ b.prefix_).then <|\n  (cmpNat a.srcPlen b.srcPlen)\n\n/-- route",claim="C21 source prefix distinguishes entries"),
 dict(file=F,**{"def":"routeCompare"},old="if !a.isSS && b.isSS then .gt",new="if !a.isSS && b.isSS then .lt",claim="C21 antisymmetry of the route order"),
 dict(file=F,**{"def":"routeCompare"},old="    (cmpNat a.plen b.plen).then <|\n    if a.isSS",new="    if a.isSS",claim="C21 prefix length distinguishes routes"),
 dict(file=F,**{"def":"bsLoop"},old="| .lt => bsLoop c p (m - 1)\n    | .gt => bsLoop c (m + 1) g",new="| .gt => bsLoop c p (m - 1)\n    | .lt => bsLoop c (m + 1) g",claim="C21 search direction"),
 dict(file=F,**{"def":"findSlotIdx"},old="bsLoop c 0 ((n : Int) - 1)",new="bsLoop c 0 ((n : Int) - 2)",claim="C21 last entry is found"),
 dict(file=F,**{"def":"findSlotIdx"},old="bsLoop c 0 ((n : Int) - 1)",new="bsLoop c 1 ((n : Int) - 1)",claim="C21 first entry is found"),
 dict(file=F,**{"def":"bsLoop"},old="else .missing p.toNat",new="else .missing (p + 1).toNat",claim="C21 insertion point"),
 dict(file=F,**{"def":"insertAt"},old="t.take n ++ e :: t.drop n",new="t.take n ++ e :: t.drop (n + 1)",claim="C21 insertion loses an entry"),
 dict(file=F,**{"def":"removeAt"},old="t.take n ++ t.drop (n + 1)",new="t.take n ++ t.drop (n + 2)",claim="C21 removal loses another entry"),
 dict(file=F,**{"def":"tAdd"},old="| .found _ => t\n  | .missing n => insertAt t n e",new="| .found i => insertAt t i e\n  | .missing n => insertAt t n e",claim="C21 duplicate key"),
 dict(file=G,**{"def":"rtInsert"},old="| .found i => t.modify i (· ++ [r])",new="| .found i => t.modify i (fun _ => [r])",claim="C24 earlier routes lost"),
 dict(file=G,**{"def":"rtInsert"},old="| .missing n => insertAt t n [r]",new="| .missing _ => t ++ [[r]]",claim="C24 table sorted"),
 dict(file=G,**{"def":"rtRemove"},old="if s.isEmpty then removeAt t i else t.set i s",new="t.set i s",claim="C24 no empty slots"),
 dict(file=G,**{"def":"moveToHead"},old="| some r => r :: s.eraseP (fun r => r.neigh == n)",new="| some r => r :: s",claim="C24 one route per neighbour"),
 dict(file=G,**{"def":"rtFindInstalled"},old="if (t[i]!.headD default).installed then t[i]!.head? else none",new="t[i]!.head?",claim="C24/C25 only selected routes are returned"),
]
