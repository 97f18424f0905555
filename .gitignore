.lake/
lean/.lake/
build/
