# usage: note.py ID "text"
import json,sys
f='/verif/tools/notes.json'
d=json.load(open(f))
d.setdefault(sys.argv[1],{})["note"]=sys.argv[2]
json.dump(d,open(f,'w'),indent=1,ensure_ascii=False)
