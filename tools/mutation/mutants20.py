M=[]
def m(file,defn,old,new,claim,props,nth=0,dir='Model'): M.append(dict(file=file,defn=defn,old=old,new=new,claim=claim,props=props,nth=nth,dir=dir))
S='Spec'; F='SledFeed'
# copying from a store in use
m(F,'Link.two','onDst f s := (f s.1, s.2)','onDst f s := (f s.1, f s.2)','writing to the one database does not affect the other','C95')
m(F,'Link.two','onSrc f s := (s.1, f s.2)','onSrc f s := (f s.1, f s.2)','writing to the one database does not affect the other','C95')
m(F,'Link.two','src := Prod.snd','src := Prod.fst','the other store is read','C95')
m(F,'onward','| (_, .error _) => .ret ()','| (g, .error _) => k g','a copy stops at an error','C95')
m(F,'onward','| (g, .ok ()) => k g','| (_, .ok ()) => .ret ()','a copy goes on','C95')
m(F,'handNodes','| e :: l, g => (lift L.dst L.onDst (W g ⟨[vertexItem Id c e], []⟩)).bind (onward (handNodes k l))','| _ :: l, g => handNodes k l g','nodes are copied','C95')
m(F,'handNodes','(onward (handNodes k l))','(onward k)','all nodes read ahead are copied','C95')
m(F,'handNodes','lift L.dst L.onDst','lift L.src L.onSrc','nodes are written to the one store, not to the other','C95')
m(F,'feedNodes','(cursor cur l)','cur','the iterator goes on where it was','C95')
m(F,'feedNodes','.take n','.drop n','the iterator skips nothing','C95')
m(F,'feedNodes','| [], cur, g => .call id (fun s => handNodes L c W k (rest cur (L.src s).nodeProps.entries) g)','| [], _, g => k g','all nodes are read','C95')
m(F,'feedNodes','.call id (fun s => handNodes','.call (L.onSrc (fun _ => .empty)) (fun s => handNodes','reading does not write','C95')
m(F,'feedNodes','(L.src s).nodeProps','(L.dst s).nodeProps','the nodes of the other store are read','C95')
m(F,'feedNodes','(L.src s).nodeProps','(L.src s).edgeProps','the nodes are read','C95',nth=1)
m(F,'handEdges','intoEdgeItem Id c (L.src s) e','intoEdgeItem Id c (L.dst s) e','the record of an edge is looked up in the other store','C95')
m(F,'handEdges','(onward (handEdges k l))','(onward k)','all edges read ahead are copied','C95')
m(F,'handEdges','⟨[], [intoEdgeItem Id c (L.src s) e]⟩','⟨[], []⟩','edges are copied','C95')
m(F,'feedEdges','(L.src s).spo','(L.src s).pos','the edges are read in SPO order','C95',nth=1)
m(F,'feedEdges','(L.src s).spo','(L.src s).osp','the edges are read in SPO order','C95')
m(F,'feedEdges','(cursor cur l)','none','the iterator goes on where it was','C95')
m(F,'feedEdges','| [], cur, g => .call id (fun s => handEdges L c W k (rest cur (L.src s).spo.entries) g)','| [], _, g => k g','all edges are read','C95')
m(F,'feed','feedNodes L c W (feedEdges L c W (fun _ => .ret ()) es none) ns none g','feedEdges L c W (feedNodes L c W (fun _ => .ret ()) ns none) es none g','nodes come before edges','C95')
m(F,'feed','(feedEdges L c W (fun _ => .ret ()) es none)','(fun _ => .ret ())','edges are copied','C95')
# what is claimed
m(F,'Act.prog','feed L c (Sled.extend c (Id := Id)) ns es u','feed L c (Sled.extend c (Id := Id)) ns es (fun n => u (n + 1))','the ids are those of the generator','C95',dir=S)
m(F,'Act.Is','∃ s, Told c D s ∧ o = some (.extend u s)','∃ s, Told c (fun _ => D 0) s ∧ o = some (.extend u s)','a copy is no snapshot','C95',dir=S)
m(F,'Act.Is','∃ s, Told c D s ∧ o = some (.merge g s)','∃ s, Told c (fun m => D (2 * m)) s ∧ o = some (.merge g s)','(moments of reading are moments of the course)','C95',dir=S)
m(F,'Told','Reading D .SPO','Reading D .POS','edges are read in SPO order','C95',dir=S)
m(F,'Told','edgeItem Id c (D e.look)','edgeItem Id c (D e.scan)','records are looked up later','C95',dir=S)
m(F,'While','(r < l → k < a ∨ a = N)','(r ≤ l → k < a ∨ a = N)','(a call may read in its first step)','C95',dir=S)
m(F,'While','(l < r → b ≤ k)','(l ≤ r → b ≤ k)','(a call reads after it has begun)','C95',dir=S)
m(F,'While','∨ a = N','','(a call may not begin at all)','C95',dir=S)
m(F,'Through','y (k + 1) = y k ∨ ','','(the other database may have the step)','C95',dir=S)
m(F,'mostEdges','+ (allWrites (acts.map (List.filterMap Act.onSrc))).length','','edges written meanwhile may be read too','C95',dir=S)
m(F,'Act.draws','(List.range n).map (fun j => (toBeBytes (g j)).1)','[]','a merge draws ids','C95',dir=S)
m(F,'DistinctDraws','∀ v ∈ acts.flatten.flatMap (Act.draws n), d.edgeProps.get v = none','True','the ids are unused','C95',dir=S)
m(F,'NoScans','¬ y.IsScan','True','(scans made in advance)','C95',dir=S)
m(F,'Act.given','| .extend u _ _ => some (.extend u o)','| .extend u _ _ => some (.extend u ⟨o.nodes, []⟩)','edges are copied','C95',dir=S)
m(F,'mostOwn','+ (allWrites (acts.map (List.filterMap Act.onDst))).length','','edges written meanwhile may be copied too','C95',dir=S)
m(F,'Act.onDst','| .dst y => some y','| .dst _ => none','what others write counts','C95',dir=S)
m(F,'CopyOf','∃ k ≤ N, .ok (n, p) ∈ iterVertices Id c (D k)','.ok (n, p) ∈ iterVertices Id c (D 0)','(nodes may be copied which were not there at the start)','C95',dir=S)
m(F,'CopyOf','∃ k ≤ N, .ok (t, p) ∈ iterEdges Id c (D k) .SPO','.ok (t, p) ∈ iterEdges Id c (D N) .SPO','(edges may be copied with properties they do not have in the end)','C95',dir=S)
m(F,'CopyOf','∃ q, H.nodes n = some q','H.nodes n = some p','(others may write nodes)','C95',dir=S)
m(F,'CopyOf','∃ q, H.edges t = some q','H.edges t = some p','(others may insert edges)','C95',dir=S)
m(F,'CopyOf','(∀ th ∈ threads, ∀ y ∈ th, ¬ y.TouchesEdge t) → H.edges t','H.edges t','(others may insert edges)','C95',dir=S)
m(F,'CopyOf','(∀ th ∈ threads, ∀ y ∈ th, ¬ y.TouchesNode n) → H.nodes n','H.nodes n','(others may write nodes)','C95',dir=S)
