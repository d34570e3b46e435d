{"C13":{"status":"partial","note":"The property as stated is false of the code: bucket width is ttl/11 s rotated 12 deep with integer truncation, C13_counterexample refutes it for every ttl>=1 (an element can be forgotten before the TTL ends). C13_ttl_partial proves the window that really is guaranteed."}}
