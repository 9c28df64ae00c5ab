import json,sys
def reg(props,notes,rows,after):
    s=open('tools/mkprops.py').read()
    i=s.index('with open("/verif/properties.jsonl"')
    s=s[:i]+props+s[i:]
    open('tools/mkprops.py','w').write(s)
    n=json.load(open('tools/notes.json'))
    n.update(notes)
    json.dump(n,open('tools/notes.json','w'),indent=1,ensure_ascii=False)
    d=open('DESIGN.md').read()
    lines=d.split('\n')
    k=[j for j,l in enumerate(lines) if l.startswith('| '+after)]
    assert len(k)==1,(after,k)
    lines[k[0]+1:k[0]+1]=rows
    open('DESIGN.md','w').write('\n'.join(lines))
