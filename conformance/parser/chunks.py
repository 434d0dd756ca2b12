import re
L=open('/repo/test/parser_test.rb',encoding='utf8').read().split('\n')
# chunks by 'it'
chunks=[];cur=None
for i,l in enumerate(L):
    if re.match(r"      it ['\"]",l): cur=[i+1,[]]
    elif l=="      end" and cur is not None:
        chunks.append(cur);cur=None
    elif cur is not None: cur[1].append(l)
out=[]
for ln,ls in chunks:
    if all(re.match(r'\s*(#.*)?$',x) or re.match(r'\s*expect\(.*\)',x) and x.count('do |')==0 for x in ls) and not any('<<' in x for x in ls):
        for k,x in enumerate(ls):
            if x.strip() and not x.strip().startswith('#'): out.append((ln+k+1,x))
    else: out.append((ln,'\n'.join(ls)))
print(len(chunks),len(out),max(len(x) for _,x in out))
import os,shutil
shutil.rmtree('/root/val/c',ignore_errors=True);os.makedirs('/root/val/c')
for ln,x in out: open(f'/root/val/c/{ln:05d}.rb','w',encoding='utf8').write(x)
