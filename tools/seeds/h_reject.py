F="Model/Config.lean"
def d(defn,old,new,claim,**k): return dict(file=F,**{"def":defn},old=old,new=new,claim=claim,**k)
SEEDS=[
 d("quoted","if i ≥ 255 || c == 10","if i ≥ 255","C51 quoted strings end with the line",tightened=["C51_reject"]),
 d("strtol","else if rest.isEmpty then","else if true then","C51 text after a number",tightened=["C51_reject"]),
 d("parseNet","plen < 0 ∨ plen > 32","plen < 0 ∨ plen > 128","C41 length of IPv4 prefixes",tightened=["C51_reject"]),
 d("getport","v ≤ 0 ∨ v ≥ 0xFFFF","v < 0 ∨ v ≥ 0xFFFF","C52 port 0 is refused",tightened=["C51_reject"]),
]
