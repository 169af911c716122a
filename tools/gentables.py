#!/usr/bin/env python3
"""Transcribes the generated Unicode tables of /repo into Lean: the lists of runes given to rangetable.New
(grapheme/graphemeclasses.go, uax29/uax29classes.go, emoji/emojiclasses.go) and the unicode.RangeTable literals
of package shaping. Also the lines of bidi/internal/gen/BidiBrackets.txt. usage: gentables.py (writes lean/Verif/Tables*.lean)"""
import re,os
REPO='/repo/'; OUT=os.path.join(os.path.dirname(os.path.abspath(__file__)),'../lean/Verif/')
ESC={"\\r":13,"\\n":10,"\\t":9,"\\v":11,"\\f":12,"\\a":7,"\\b":8,"\\'":39,'\\\\':92}
def runes(s):
    out=[]
    for m in re.finditer(r"'(\\u[0-9a-f]{4}|\\U[0-9a-f]{8}|\\x[0-9a-f]{2}|\\.|[^'\\])'",s):
        t=m.group(1)
        if t[0]=='\\' and t[1] in 'uUx': out.append(int(t[2:],16))
        elif t in ESC: out.append(ESC[t])
        else:
            assert len(t)==1,t
            out.append(ord(t))
    return out
def classes(path):
    """name -> (first line, last line, runes)"""
    src=open(REPO+path,encoding='utf-8').read(); d={}
    for m in re.finditer(r"^    (\w+) = rangetable\.New\(((?:'(?:\\.|[^'\\])+'|[^')])*)\)\n    rangeFrom\w+\[int\((\w+)Class\)\] = (\w+)$",src,re.M):
        assert m.group(1)==m.group(3)==m.group(4)
        a=src.count('\n',0,m.start())+1; b=a+m.group(0).count('\n')
        rs=runes(m.group(2))
        assert m.group(2).count('\\u')+m.group(2).count('\\U')+m.group(2).count('\\x')<=len(rs)
        d[m.group(1)]=(a,b,rs)
    assert len(d)==src.count('rangetable.New(')
    return d
def ranges(rs):
    out=[]
    for r in sorted(set(rs)):
        if out and out[-1][1]+1==r: out[-1][1]=r
        else: out.append([r,r])
    return out
def show(prs):
    items=['(0x%x, 0x%x)'%tuple(p) for p in prs]; lines=[]
    for i in range(0,len(items),6): lines.append('  '+', '.join(items[i:i+6]))
    return '[\n'+',\n'.join(lines)+']' if items else '[]'
def lean_name(n): return n
def class_file(path,ns,mod,intro):
    d=classes(path)
    o=['/-\nGenerated by tools/gentables.py from /repo/%s. %s\nThe lists of runes are written as ranges.\n-/\n'%(path,intro),'namespace Uax.'+ns,'']
    for n,(a,b,rs) in d.items():
        o.append('/-- /repo/%s:%d-%d, the %d runes of `%s`. -/'%(path,a,b,len(set(rs)),n))
        o.append('def %s : List (Nat × Nat) := %s\n'%(lean_name(n),show(ranges(rs))))
    o.append('end Uax.'+ns+'\n')
    open(OUT+mod+'.lean','w').write('\n'.join(o))
    return d
def shaping(path):
    src=open(REPO+path).read(); res=[]
    for m in re.finditer(r"^var _(\w+) = &unicode\.RangeTable\{ // (\d+) entries\n(.*?)^\}\n",src,re.M|re.S):
        a=src.count('\n',0,m.start())+1; b=a+m.group(0).count('\n')-1
        body=m.group(3); r16,r32,lat=[],[],0; cur=None
        for l in body.split('\n'):
            l=l.strip()
            if l=='R16: []unicode.Range16{': cur=r16
            elif l=='R32: []unicode.Range32{': cur=r32
            elif l in('},',''): pass
            elif l.startswith('LatinOffset:'): lat=int(l.split()[1].rstrip(','))
            else:
                x=re.fullmatch(r'\{0x([0-9a-f]+), 0x([0-9a-f]+), 1\},',l); assert x,l
                cur.append([int(x.group(1),16),int(x.group(2),16)])
        assert len(r16)+len(r32)==int(m.group(2))
        res.append((m.group(1),a,b,r16,r32,lat))
    # every table is published under its name
    pub=dict(re.findall(r'^    (\w+) \*unicode\.RangeTable = _(\w+)$',src,re.M))
    assert all(k==v for k,v in pub.items()) and set(pub)==set(x[0] for x in res)
    return res
def shaping_file(path,group,mod):
    t=shaping(path)
    o=['import Verif.RangeTable','','/-\nGenerated by tools/gentables.py from /repo/%s: the literals and the variables which publish them.\nAll ranges have stride 1.\n-/\n'%path,'namespace Uax.Shaping','']
    for n,a,b,r16,r32,lat in t:
        o.append('/-- /repo/%s:%d-%d, `%s`. -/'%(path,a,b,n))
        o.append('def %s : RangeTable := ⟨%s, %s, %d⟩\n'%(lean_name(n),show(r16),show(r32),lat))
    o.append('/-- All tables of the file, with their public names. -/')
    o.append('def %s : List (String × RangeTable) := [\n%s]\n'%(group,',\n'.join('  ("%s", %s)'%(n,lean_name(n)) for n,*_ in t)))
    o.append('end Uax.Shaping\n')
    open(OUT+mod+'.lean','w').write('\n'.join(o))
    return t
def bracket_file():
    path='bidi/internal/gen/BidiBrackets.txt'
    src=open(REPO+path,encoding='utf-8',newline='').read()
    assert '\r' not in src and src.endswith('\n')
    num=lambda t:'['+', '.join(str(ord(c)) for c in t)+']'
    o=['/-\nGenerated by tools/gentables.py from /repo/%s: the lines of the file as lists of runes.\n-/\n'%path,'namespace Uax.Ucd','']
    ls=src[:-1].split('\n'); k=0
    for i in range(0,len(ls),16):
        k+=1
        o.append('/-- /repo/%s:%d-%d. -/\ndef bracketFile%d : List (List Nat) := [\n%s]\n'%(path,i+1,min(i+16,len(ls)),k,',\n'.join('  '+num(l) for l in ls[i:i+16])))
    o.append('/-- /repo/%s. -/\ndef bracketFile : List (List Nat) :=\n  %s\n'%(path,' ++ '.join('bracketFile%d'%(j+1) for j in range(k))))
    o.append('end Uax.Ucd\n')
    open(OUT+'TablesBracketFile.lean','w').write('\n'.join(o))
if __name__=='__main__':
    bracket_file()
    G=class_file('grapheme/graphemeclasses.go','TabG','TablesGrapheme','The class tables of the grapheme breaker.')
    W=class_file('uax29/uax29classes.go','TabW','TablesWord','The class tables of the word breaker.')
    E=class_file('emoji/emojiclasses.go','TabE','TablesEmoji','The emoji class tables.')
    S=[shaping_file('shaping/%s.go'%f,g,m) for f,g,m in(('arabictables','arabic','TablesArabic'),('uipctables','positional','TablesPositional'),('uisctables','syllabic','TablesSyllabic'))]
