import json
r={"mods":["Verif.NN.PropsRelabel"],"props":[["C93","How features, hidden units and classes are numbered does not matter",
"Reorder the columns of the training inputs (the features) and the columns of the labels (the classes), and start from the network whose weights are renumbered accordingly (also with the hidden units in any order): after any training the network is still the original one renumbered; its outputs are the original outputs with the classes reordered; computecost reports the same cost; predict reports the same confidence and, where one class alone has the largest output, the same class. This holds with each of the four output layers of the library.",
"all dense networks of any depth and width, all permutations of features, hidden units and classes, all sequences of batches, all inputs and labels",
"all permutations, networks and training histories; a test permutes one data set.",
["src/layer.cpp: forwardprop, backprop, update","src/neuralnet.cpp: forwardprop, backprop, update, predict, computecost","src/outputlayer.cpp: argmax","src/output/quadraticoutput.cpp","src/output/crossentropyoutput.cpp","src/output/softmaxoutput.cpp","src/output/kullbackleibleroutput.cpp"]]],
"notes":{"C93":["proved","Exact arithmetic: with doubles the sums of a layer are added up in another order, so results agree only up to rounding (C82 bounds it). Well-formed dense networks; ties between classes go to the lowest number (C32), so predictions may differ there, as they must."]},
"design":"(C93) Generalises C80: the forward pass, backprop and update commute with permuting rows and columns of weights, inputs and labels; induction over layers, then over batches; the library's costs commute with reordering columns."}
json.dump(r,open('/tmp/gen/r93.json','w'))
