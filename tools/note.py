# usage: note.py ID STATUS NOTE  -- sets the note for a property
import json,sys
p='/verif/tools/notes.json'
d=json.load(open(p))
d[sys.argv[1]]={"status":sys.argv[2],"note":sys.argv[3]}
json.dump(dict(sorted(d.items())),open(p,'w'),indent=1)
