M=[]
def m(file,defn,old,new,claim,props,nth=0):
    M.append(dict(file=file,defn=defn,old=old,new=new,claim=claim,props=props,nth=nth))
R='RdfSled';U='UlidGen';S='MemSet'
m(R,'mergeNode','Sled.mergeNode c mN id p','Sled.mergeNode c (fun a b => mN b a) id p','merge_node merges the new properties into the old ones','C60 C61')
m(R,'mergeEdge','Sled.mergeEdge c mE (Gen.fresh i.gen).1 t p','Sled.mergeEdge c (fun a b => mE b a) (Gen.fresh i.gen).1 t p','merge_edge merges the new properties into the old ones','C60 C61')
m(U,'increment','randomBits u = 2 ^ 80 - 1','u.val = 2 ^ 128 - 1','overflow of the random bits is an error','C62')
m(U,'generate','r.ms.val ≤ timestamp previous','r.ms.val < timestamp previous','ids increase within a millisecond','C62')
m(U,'generate','r.ms.val ≤ timestamp previous','r.ms.val = timestamp previous','ids increase when the clock goes back','C62')
m(U,'generate','| some u => (u, some u)','| some u => (previous, some u)','the state is the last id','C62')
m(U,'generate','else (r.ulid, some r.ulid)','else (previous, some r.ulid)','the state is the last id','C62')
m(U,'Reading.ulid','r.ms.val * 2 ^ 80 + r.random.val','r.random.val * 2 ^ 48 + r.ms.val','the timestamp comes first','C62')
m(U,'fresh','| (s, none) => (s, r.2.ulid)','| (s, none) => (s, s)','(also repeats ids) what happens on overflow','C62')
m(U,'ids','(fresh (state env k) (env k)).2','(fresh (state env k) (env 0)).2','(the clock standing still: still increasing?) every call reads the clock','C62')
m(S,'eqEdgePropById','else if p == q then','else if q == p then','== compares in the order self, other','C63')
m(S,'eqEdgePropById','if cache.contains (i, j) then (true, cache)','if cache.any (fun x => x.1 == i) then (true, cache)','the cache is keyed by both ids','C22 C63')
m(S,'eqEdgePropById','else (false, cache)','else (false, HSet.insert cache (i, j))','(the loop stops: the same) only equal pairs are cached','C63',1)
m(S,'eqEdgePropById','if p.isNone || q.isNone then (false, cache)','if p.isNone && q.isNone then (false, cache)','(on reachable stores the same) dangling ids are unequal','C22')
m(S,'eq','if !(a.nodeProps.entries == b.nodeProps.entries) then false','if !((a.nodeProps.entries.zip b.nodeProps.entries).all (fun x => x.1 == x.2)) then false','the number of nodes is compared','C22 C63')
m(S,'eq','if !(a.nodeProps.entries == b.nodeProps.entries) then false','if !(a.nodeProps.entries == b.nodeProps.entries || a.edgeProps.entries.isEmpty) then false','nodes are compared','C22 C63')
m(S,'tryEqLoop','if !(a == b) then .ok (some false)','if !(b == a) then .ok (some false)','try_eq compares in the order self, other','C63')
m(S,'tryEqLoop','| [], [] => .ok none','| [], _ => .ok none','a shorter store is different','C21 C63')
m(S,'tryEqLoop','| .error e => .error (.left e)\n    | .ok a =>\n      match y with\n      | .error e => .error (.right e)','| .error e => .error (.left e)\n    | .ok a =>\n      match y with\n      | .error _ => .ok (some false)','errors of the other store are reported','C21 C63')
m(S,'tryEq','match tryEqLoop a.edges b.edges with\n    | .error e => .error e\n    | .ok (some r) => .ok r','match tryEqLoop a.edges b.edges with\n    | .error e => .error e\n    | .ok (some _) => .ok true','edges are compared','C21 C63')
