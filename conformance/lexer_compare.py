import pickle
cases=pickle.load(open('cases.pkl','rb')); outs=open('out.txt').read().split('\n')
bad=0
for (s,e,loc),o in zip(cases,outs):
    got=[]
    if o in('ABORT','UB','FUEL'): print(s,o); bad+=1; continue
    for t in o.split('\t'):
        ty,val,lit,fix,flt,line,col,ws,doc=t.split('|')
        if ty=='Eof': continue
        d={'type':('sym',bytes.fromhex(val))}
        l=bytes.fromhex(lit[6:-1]) if lit!='none' else None
        if ty in('Bignum','Doc','String'): d['literal']=l
        elif ty in('BackRef','BareName','ClassVariable','Constant','GlobalVariable','InstanceVariable','OperatorName','Symbol','SymbolKey'): d['literal']=('sym',l)
        elif ty in('Fixnum','NthRef'): d['literal']=int(fix)
        elif ty=='Float': d['literal']=float(flt)
        elif ty=='InterpolatedRegexpEnd' and l is not None: d['options']=l
        if loc: d['line']=int(line); d['column']=int(col)
        got.append(d)
    if got!=e: bad+=1; print('MISMATCH',s,'\n  exp',e,'\n  got',got)
print(bad,'bad of',len(cases))
