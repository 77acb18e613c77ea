SEEDS = []


CLAIMS = {
    "hexChar": "hexadecimal digits are read back", "hexDigits": "identifiers are read back", "hex4": "the history has four hexadecimal digits",
    "formatAddress": "addresses are read back", "formatPrefix": "prefixes are read back", "hex2": "router-ids are pairs of digits",
    "formatEui64": "router-ids are read back", "formatThousands": "times are read back", "kindText": "the kind of the event is right",
    "ifLine": "the line about an interface is read back", "rttText": "the RTT is shown if it is valid", "nbrLine": "the line about a neighbour is read back",
    "xrouteLine": "the line about a redistributed route is read back", "routeLine": "the line about a route is read back",
    "yesNo": "selected routes are shown as such", "headerText": "the header is read back", "tryWrite": "the client is waited for, errors end the writing",
    "writeTimeout": "a beginning of the text is sent, all of it if the value is 1", "connStep": "texts are sent in full or the connection is shut down",
}


def d(file, defn, old, new, claim, **k):
    SEEDS.append(dict(file=file, old=old, new=new, claim=claim + ": " + CLAIMS[defn], **{"def": defn}, **k))


F = "Model/Report.lean"
d(F, "hexChar", "else 87 + n)", "else 55 + n)", "C79", equiv=True)
d(F, "hexChar", "if n < 10 then 48 + n", "if n ≤ 10 then 48 + n", "C79")
d(F, "hexDigits", "if n < 16 then [hexChar n]", "if n < 10 then [hexChar n]", "C79")
d(F, "hexDigits", "hexDigits fuel (n / 16) ++ [hexChar (n % 16)]", "hexChar (n % 16) :: hexDigits fuel (n / 16)", "C79")
d(F, "hex4", "List.replicate (4 - w.length) 48 ++ w", "w", "C79")
d(F, "hex4", "List.replicate (4 - w.length) 48 ++ w", "List.replicate (4 - w.length) 32 ++ w", "C79")
d(F, "formatAddress", "if v4mapped a then T.v4 (a.drop 12) else T.v6 a", "if v4mapped a then T.v4 (a.take 4) else T.v6 a", "C79")
d(F, "formatAddress", "if v4mapped a then T.v4 (a.drop 12) else T.v6 a", "if v4mapped a then T.v6 a else T.v4 (a.drop 12)", "C79")
d(F, "formatPrefix", "decDigits 3 (plen - 96)", "decDigits 3 plen", "C79")
d(F, "formatPrefix", "if plen ≥ 96 ∧ v4mapped p then", "if plen > 96 ∧ v4mapped p then", "C79")
d(F, "formatPrefix", "if plen ≥ 96 ∧ v4mapped p then", "if plen ≥ 96 then", "C79")
d(F, "formatPrefix", "else T.v6 p ++ 47 :: decDigits 3 plen", "else T.v6 p ++ 47 :: decDigits 2 plen", "C79")
d(F, "hex2", "[hexChar (b.toNat / 16), hexChar (b.toNat % 16)]", "hexDigits 2 b.toNat", "C79")
d(F, "formatEui64", "hex2 b ++ 58 :: formatEui64 bs", "hex2 b ++ formatEui64 bs", "C79")
d(F, "formatThousands", "decDigits 7 (v / 1000) ++ 46 :: (List.replicate (3 - w.length) 48 ++ w)", "decDigits 7 (v / 1000) ++ 46 :: w", "C79")
d(F, "formatThousands", "decDigits 7 (v / 1000) ++ 46", "decDigits 7 (v / 100) ++ 46", "C79")
d(F, "kindText", '| .flush => ascii "flush"', '| .flush => ascii "change"', "C79")
d(F, "ifLine", "| some a => if up then T.v4 a else []", "| some a => if up then [] else T.v4 a", "C79")
d(F, "ifLine", 'ascii " ipv6 " ++ formatAddress T a', 'ascii " ipv6" ++ formatAddress T a', "C79")
d(F, "ifLine", 'name ++ ascii " up false" ++ [10]', 'name ++ ascii " up false"', "C79")
d(F, "ifLine", '(if v4 = [] then [] else ascii " ipv4 ") ++ v4', 'ascii " ipv4 " ++ v4', "C79")
d(F, "rttText", "if t.length ≥ 64 then [] else t", "if t.length ≥ 32 then [] else t", "C79")
d(F, "rttText", "formatThousands rtt", "decDigits 10 rtt", "C79")
d(F, "nbrLine", 'ascii " reach " ++ hex4 n.reach', 'ascii " reach " ++ hex4 n.ureach', "C79")
d(F, "nbrLine", 'ascii " rxcost " ++ decDigits 10 n.rxcost', 'ascii " rxcost " ++ decDigits 10 n.txcost', "C79")
d(F, "nbrLine", "++ rttText n.rtt ++", "++", "C79")
d(F, "nbrLine", 'decDigits 10 n.cost ++ [10]', 'decDigits 5 n.cost ++ [10]', "C79")
d(F, "xrouteLine", 'let src := formatPrefix T sp splen', 'let src := formatPrefix T p splen', "C79")
d(F, "xrouteLine", 'dst ++ ascii "-" ++ src', 'dst ++ src', "C79")
d(F, "xrouteLine", 'ascii " from " ++ src', 'ascii " from " ++ dst', "C79")
d(F, "routeLine", 'formatPrefix T r.src r.srcPlen', 'formatPrefix T r.src r.plen', "C79")
d(F, "routeLine", 'ascii " metric " ++ decDigits 10 r.metric', 'ascii " metric " ++ decDigits 10 r.refmetric', "C79")
d(F, "routeLine", 'ascii " via " ++ formatAddress T r.via', 'ascii " via" ++ formatAddress T r.via', "C79")
d(F, "yesNo", 'if b then ascii "yes" else ascii "no"', 'if b then ascii "no" else ascii "yes"', "C79")
d(F, "headerText", 'formatEui64 myid ++ ascii "\\nok\\n"', 'formatEui64 myid ++ ascii "\\nok"', "C79")
d(F, "headerText", '(host.getD (ascii "alamakota"))', '(host.getD [])', "C79")
d(F, "tryWrite", "| .sent n => min n len\n  | .fail => 0", "| .sent n => n\n  | .fail => 0", "C79", equiv=True)
d(F, "tryWrite", "| .fail => 0\n  | .again =>\n    if a.ready then", "| .fail => len\n  | .again =>\n    if a.ready then", "C79")
d(F, "tryWrite", "    if a.ready then\n", "    if !a.ready then\n", "C79")
d(F, "writeTimeout", "(b.take n ++ r.1, r.2)", "(r.1, r.2)", "C79")
d(F, "writeTimeout", "(b.take n ++ r.1, r.2)", "(b.take n ++ r.1, true)", "C79")
d(F, "writeTimeout", "(fun i => env (i + 1)) (b.drop n)", "(fun i => env (i + 1)) b", "C79")
d(F, "writeTimeout", "if n = 0 then ([], false)", "if n = 0 then ([], true)", "C79")
d(F, "connStep", "if t.length ≥ size then { c with shut := true }", "if t.length ≥ size then c", "C79")
d(F, "connStep", "if t.length ≥ size then { c with shut := true }", "if t.length ≥ size then { c with sent := c.sent ++ t.take size }", "C79")
d(F, "connStep", "shut := !r.2 }", "shut := false }", "C79")
d(F, "connStep", "else if c.shut then c", "else if false then c", "C79")
d(F, "connStep", "| .quit => { c with shut := true }", "| .quit => c", "C79")
