M=[]
def m(file,defn,old,new,claim,props,nth=0):
    M.append(dict(file=file,defn=defn,old=old,new=new,claim=claim,props=props,nth=nth))
U='UlidGen';S='MemSet'
m(U,'fresh','| (s, none) => (s, r.2.ulid)','| (s, none) => (s, s)','what happens on overflow','C62')
m(U,'fresh','| (s, none) => (s, r.2.ulid)','| (s, none) => (r.2.ulid, r.2.ulid)','the generator does not learn of the id made on overflow','C62')
m(U,'increment','if h : randomBits u = 2 ^ 80 - 1 then none\n  else some ⟨u.val + 1, by have := u.isLt; unfold randomBits at h; omega⟩','if h : u.val = 2 ^ 128 - 1 then none\n  else some ⟨u.val + 1, by have := u.isLt; omega⟩','overflow of the random bits is an error','C62')
