import re,glob,sys
sys.path.insert(0,'/verif/tools')
from mutlib import is_start
for p in glob.glob('/tmp/auto_base/Verif/**/*.lean',recursive=True):
    L=open(p).read().split('\n'); out=[];i=0;ch=False
    while i<len(L):
        if re.match(r'(set_option \S+ \S+ in\s*)?example\b',L[i]):
            ch=True
            if out and out[-1].rstrip().endswith('-/'):
                k=len(out)-1
                while not out[k].startswith('/--') and not out[k].startswith('/-!') : k-=1
                if out[k].startswith('/--'): del out[k:]
            i+=1
            while i<len(L) and not is_start(L[i]) and not L[i].startswith('set_option') and not L[i].startswith('/-'): i+=1
        else: out.append(L[i]); i+=1
    # drop doc comments now dangling: turn "/-- ... -/" directly followed by non-decl into plain comments
    s='\n'.join(out)
    if ch:
        open(p,'w').write(s)
