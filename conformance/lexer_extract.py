import re,json,sys
src=open('/repo/test/lexer_test.rb',encoding='utf8').read()
class Skip(Exception): pass
def b(s): return s.encode('utf8')
def dq(s,i,end):
    out=bytearray(); 
    depth=0
    opn={')':'(',']':'[','}':'{'}.get(end)
    while True:
        c=s[i]
        if c==end and depth==0: return bytes(out),i+1
        if opn and c==opn: depth+=1
        if opn and c==end: depth-=1
        if c=='#' and s[i+1]=='{': raise Skip('interp')
        if c=='\\':
            n=s[i+1]
            m=re.match(r'[0-7]{1,3}',s[i+1:])
            if n=='n': out+=b'\n' if False else bytes([10]); i+=2
            elif n=='t': out+=bytes([9]); i+=2
            elif n=='a': out+=bytes([7]); i+=2
            elif n=='x':
                m=re.match(r'[0-9a-fA-F]{1,2}',s[i+2:]); out+=bytes([int(m[0],16)]); i+=2+len(m[0])
            elif n=='u':
                m=re.match(r'[0-9a-fA-F]{4}',s[i+2:]); out+=chr(int(m[0],16)).encode('utf8','surrogatepass'); i+=6
            elif m: out+=bytes([int(m[0],8)&255]); i+=1+len(m[0])
            else: out+=n.encode('utf8'); i+=2
        else: out+=c.encode('utf8'); i+=1
def sq(s,i,end):
    out=bytearray(); depth=0
    opn={')':'(',']':'[','}':'{'}.get(end)
    while True:
        c=s[i]
        if c==end and depth==0: return bytes(out),i+1
        if opn and c==opn: depth+=1
        if opn and c==end: depth-=1
        if c=='\\' and s[i+1] in (end,'\\'): out+=s[i+1].encode(); i+=2
        else: out+=c.encode('utf8'); i+=1
def ws(s,i):
    while True:
        while s[i] in ' \n\t': i+=1
        if s[i]=='#':
            while s[i]!='\n': i+=1
        else: return i
def val(s,i):
    i=ws(s,i)
    c=s[i]
    if c=='[':
        out=[]; i=ws(s,i+1)
        while s[i]!=']':
            v,i=val(s,i); out.append(v); i=ws(s,i)
            if s[i]==',': i=ws(s,i+1)
        return out,i+1
    if c=='{':
        out={}; i=ws(s,i+1)
        while s[i]!='}':
            m=re.match(r'(\w+):\s',s[i:])
            if m: k=m[1]; i+=len(m[0])
            else:
                k,i=val(s,i); k=k[1].decode(); i=ws(s,i); assert s[i:i+2]=='=>',s[i:i+20]; i+=2
            v,i=val(s,i); out[k]=v; i=ws(s,i)
            if s[i]==',': i=ws(s,i+1)
        return out,i+1
    if c=="'": v,i=sq(s,i+1,"'"); return v,i
    if c=='"': v,i=dq(s,i+1,'"'); return v,i
    if s.startswith('%(',i): return dq(s,i+2,')')
    if s.startswith('%q(',i): return sq(s,i+3,')')
    if s.startswith(":'",i): v,i=sq(s,i+2,"'"); return ('sym',v),i
    if s.startswith(':"',i): v,i=dq(s,i+2,'"'); return ('sym',v),i
    m=re.match(r':(@{0,2}\$?\w+[?!]?=?(?!>)|\[\]=?|[^\s\w,}\])]+)',s[i:])
    if m: return ('sym',m[1].encode()),i+len(m[0])
    m=re.match(r'-?[0-9_]+(\.[0-9]+)?',s[i:])
    if m: return (float(m[0]) if m[1] else int(m[0])),i+len(m[0])
    raise Skip('val '+s[i:i+20])
cases=[]; skipped=0
for m in re.finditer(r'expect\(tokenize\(',src):
    try:
        s,i=val(src,m.end())
        loc=False
        if src.startswith(', true',i): loc=True; i+=6
        if not src.startswith(')).must_equal',i): raise Skip('shape '+src[i:i+30])
        e,i=val(src,i+len(')).must_equal'))
        cases.append((s,e,loc))
    except Skip as ex: skipped+=1; print('skip',ex,src[m.start():m.start()+60].replace('\n',' '),file=sys.stderr)
ks=re.search(r'%w\[\s*__ENC(.*?)\]',src,re.S)
for k in ('__ENC'+ks[1]).split(): cases.append((k.encode(),[{'type':('sym',k.encode())}],False))
for k in ('__ENC'+ks[1]).split():
    t='constant' if k in('BEGIN','END') else 'name'
    cases.append((b'alias '+k.encode()+b' foo',[{'type':('sym',b'alias')},{'type':('sym',t.encode()),'literal':('sym',k.encode())},{'type':('sym',b'name'),'literal':('sym',b'foo')}],False))
    cases.append((b'undef '+k.encode(),[{'type':('sym',b'undef')},{'type':('sym',t.encode()),'literal':('sym',k.encode())}],False))
ops=re.search(r'operators = %w\[(.*?)\n      \]',src,re.S)[1].split()
cases.append((' '.join(ops).encode(),[{'type':('sym',o.encode())} for o in ops],False))
syms=re.search(r"tokenizes symbols' do\n      \{(.*?)\}\.each",src,re.S)[1]
for line in syms.strip().split('\n'):
    a,_,_=line.strip().rpartition(' => ')
    v,_=val(a+' ',0)
    lit=v[1:]
    if lit.startswith(b"'"): lit=lit[1:-1]
    cases.append((v,[{'type':('sym',b'symbol'),'literal':('sym',lit)}],False))
print(len(cases),'cases',skipped,'skipped',file=sys.stderr)
import pickle
pickle.dump(cases,open('cases.pkl','wb'))
open('src.txt','w').write('\n'.join(c[0].hex() for c in cases)+'\n')
