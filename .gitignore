build/
.lake/
