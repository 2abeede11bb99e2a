import json,sys
p='/verif/tools/notes.json'; d=json.load(open(p))
for a in sys.argv[1:]:
    k,v=a.split('=',1); d[k]={**d.get(k,{}),"note":v}
json.dump(d,open(p,'w'),indent=1,sort_keys=True)
